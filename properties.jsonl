{"id": "C01", "title": "Backward always returns", "statement": "When every operator's function delivers exactly one gradient contribution to each operand occurrence that requires gradients, ag.Backward(xs...) returns: no goroutine interleaving deadlocks, runs forever, or panics on a channel, for any acyclic graph and any list of starting tensors (including repeated ones and ones that feed each other).", "quantifier": "every finite acyclic operator graph, every list of output tensors, every initial set of gradients, every interleaving of the goroutines", "why_tests_cant": "The number of interleavings is exponential in the graph; a test observes one schedule of one graph and cannot observe the absence of a hang.", "anchors": ["ag/backward.go:Backward", "ag/operator.go:prepareBackwardPass", "ag/operator.go:processBackwardPass", "ag/operator.go:executeBackward", "ag/operator.go:AccGrad", "ag/operator.go:Grad"]}
{"id": "C02", "title": "Backward accumulates exactly the chain-rule sum, whatever the schedule", "statement": "After ag.Backward returns, the gradient of every tensor equals the gradient it had before (or the seed of an output) plus the sum, over every operator reached that consumes it and every operand position it occupies, of the contribution that operator's function computes from its own final gradient. The result does not depend on the schedule.", "quantifier": "every acyclic graph, every output list, every initial gradients, every pair of schedules", "why_tests_cant": "Schedule independence quantifies over all interleavings; lost or doubled contributions appear only under particular races.", "anchors": ["ag/backward.go:Backward", "ag/operator.go:AccGrad", "mat/dense_grad.go:AccGrad"]}
{"id": "C03", "title": "Each operator is back-propagated once, with its complete gradient", "statement": "During one ag.Backward call the backward function of every operator that is reachable from the outputs through gradient-requiring operators is invoked exactly once, and only when no further contribution to its gradient can arrive; operators not reachable that way are never invoked.", "quantifier": "every acyclic graph, output list and schedule", "why_tests_cant": "A premature invocation shows only in rare schedules; a test cannot enumerate them.", "anchors": ["ag/operator.go:processBackwardPass", "ag/operator.go:executeBackward", "ag/operator.go:trySetBackwardOngoing"]}
{"id": "C04", "title": "The graph can be back-propagated again", "statement": "When ag.Backward returns nil every operator is back in its initial bookkeeping state, so any later ag.Backward call on the same or an overlapping graph again returns and again accumulates the chain-rule sums starting from the gradients then present.", "quantifier": "every sequence of Backward calls over every acyclic graph and every schedule of each", "why_tests_cant": "Requires reasoning about arbitrary histories of calls, not a fixed number.", "anchors": ["ag/backward.go:Backward", "ag/operator.go:setBackwardIdle", "ag/operator.go:AccGrad"]}
{"id": "C05", "title": "A graph made of the library's own operators never hangs", "statement": "ag.Backward on a graph built with the operators the library ships returns. Precisely: Backward returns if and only if every gradient-requiring operator operand receives as many contributions as it has occurrences. (ScalarMax, multi-argument LogSumExp and the operators taking hyper-parameter tensors deliver fewer, and then Backward never returns.)", "quantifier": "every acyclic graph, every assignment of functions to its operators, every schedule", "why_tests_cant": "A hang cannot be told from slowness by a test, and the condition is over all graphs.", "anchors": ["mat/gradfn/scalarmax.go:Backward", "mat/gradfn/elu.go:Backward", "mat/gradfn/celu.go:Backward", "mat/gradfn/leakyrelu.go:Backward", "mat/gradfn/selu.go:Backward", "mat/gradfn/softplus.go:Backward", "mat/gradfn/softshrink.go:Backward", "mat/gradfn/threshold.go:Backward", "ag/operators.go:LogSumExp"]}
{"id": "C06", "title": "Seeding of the outputs", "statement": "ag.Backward uses the gradient an output already has; gives gradient 1 to an output that has none and is a scalar; and returns an error, invoking no backward function and changing no gradient of a non-output tensor, if some output has no gradient and is not a scalar. If the caller then supplies the missing gradient and calls Backward again the call completes with the right gradients.", "quantifier": "every graph, output list, initial gradients", "why_tests_cant": "Mixed outputs, repeated outputs and outputs feeding other outputs form an unbounded family.", "anchors": ["ag/operator.go:assignOutputGradient", "ag/backward.go:Backward"]}
{"id": "C07", "title": "StopGrad blocks gradients and nothing else", "statement": "ag.StopGrad(x) has x's value; no gradient ever reaches a tensor all of whose paths to the outputs pass through a StopGrad, and gradients of all other tensors are the same as if the StopGrad node were a constant leaf with the same value.", "quantifier": "every graph with any number of StopGrad nodes, every schedule", "why_tests_cant": "Quantifies over all graphs and all paths.", "anchors": ["ag/gradientblocker.go", "ag/operator.go:prepareBackwardPass"]}
{"id": "C08", "title": "RequiresGrad is reachability of a trainable leaf", "statement": "An operator reports RequiresGrad exactly when some chain of operands, not passing a StopGrad, leads to a leaf that requires gradients; tensors that do not require gradients keep whatever gradient they had during Backward.", "quantifier": "every acyclic graph and every assignment of the leaves' flags", "why_tests_cant": "Reachability over arbitrary graphs; memoisation makes order of calls matter.", "anchors": ["ag/operator.go:RequiresGrad", "ag/gradientblocker.go:RequiresGrad", "mat/gradfn/identity.go:Backward"]}
{"id": "C09", "title": "Gradients are derivatives", "statement": "For a graph of differentiable functions, each of whose backward function multiplies by the local partial derivatives, the gradient left on every leaf by Backward of a scalar output is the partial derivative of the output with respect to that leaf.", "quantifier": "every acyclic graph of differentiable functions over the reals and every point", "why_tests_cant": "A numerical gradient check samples points and has tolerance; the claim is an identity.", "anchors": ["ag/backward.go:Backward", "ag/operator.go:AccGrad", "mat/gradfn"]}
{"id": "C10", "title": "Asynchronous forward equals synchronous forward", "statement": "The value of every operator is the value obtained by running all operators synchronously in creation order, for any assignment of the async flag, any positive concurrency limit and any schedule; every Run and every Value call returns; and at most the limit of forward goroutines hold a slot at any time.", "quantifier": "every straight-line program of operator creations, every async flags, every limit >= 1, every schedule", "why_tests_cant": "Depends on all schedules of goroutines, and semaphore deadlocks depend on graph depth versus the limit.", "anchors": ["ag/operator.go:Run", "ag/operator.go:executeForward", "ag/operator.go:Value", "ag/operator.go:forwardGuard"]}
{"id": "C11", "title": "Gradient accumulation is an exact sum without aliasing", "statement": "After any number of AccGrad calls on a matrix, in any order, its gradient is the element-wise sum of the accumulated matrices; the accumulated argument matrices are never modified by later accumulations and later changes to them do not change the gradient; ZeroGrad makes the gradient absent again. (Violated for shapes: the gradient shares the shape slice of the first accumulated matrix, so changing that matrix's shape in place changes the gradient's shape.)", "quantifier": "every sequence of AccGrad/ZeroGrad/argument-mutation operations", "why_tests_cant": "Aliasing errors need a particular history of operations to show.", "anchors": ["mat/dense_grad.go:AccGrad", "mat/dense_grad.go:ZeroGrad", "mat/dense.go:Clone", "mat/dense.go:AddInPlace"]}
{"id": "C12", "title": "Transpose", "statement": "m.T() has the swapped dimensions and its (j,i) element is m's (i,j) element; T is an involution.", "quantifier": "every matrix of every shape (including empty, row and column)", "why_tests_cant": "The implementation walks indices by a modular stride; correctness for every rows x cols is arithmetic, not samples.", "anchors": ["mat/dense.go:T"]}
{"id": "C13", "title": "In-place transpose agrees with transpose", "statement": "m.TransposeInPlace() leaves m with the dimensions and elements of m.T(), for vectors, square and rectangular matrices, and terminates.", "quantifier": "every matrix of every shape", "why_tests_cant": "The rectangular case follows permutation cycles; cycle structure varies with every shape.", "anchors": ["mat/dense.go:TransposeInPlace", "mat/dense.go:T"]}
{"id": "C14", "title": "Element access and sub-matrices", "statement": "At/ScalarAt, SetScalar, ExtractRow, ExtractColumn and Slice read and write exactly the addressed elements (Slice(r0,c0,r1,c1) element (i,j) is element (r0+i,c0+j)), leave all others unchanged, and fail exactly when the indices are outside the documented ranges.", "quantifier": "every matrix and every index combination", "why_tests_cant": "Boundary conditions over all shapes and indices.", "anchors": ["mat/dense.go:at", "mat/dense.go:set", "mat/dense.go:Slice", "mat/dense.go:ExtractRow", "mat/dense.go:ExtractColumn"]}
{"id": "C15", "title": "Concatenate, split and stack round trip", "statement": "SplitV with the operand sizes undoes ConcatV, ConcatV of the pieces of SplitV restores the vector, and row i of Stack(vs...) is vs[i]; SplitV fails when the sizes do not add up to at most the vector size.", "quantifier": "every list of vectors of every sizes", "why_tests_cant": "Round trips quantify over all lists and partitions.", "anchors": ["mat/matrix.go:ConcatV", "mat/matrix.go:Stack", "mat/dense.go:SplitV"]}
{"id": "C16", "title": "Reshaping, padding and augmenting keep the elements", "statement": "Reshape and Flatten keep the row-major element sequence; PadRows/PadColumns/AppendRows/ResizeVector/Augment keep every old element at its position and put zeros, the given rows or the identity in the new positions; SwapInPlace exchanges exactly two rows.", "quantifier": "every matrix, every size argument", "why_tests_cant": "Offsets depend on shape; all shapes are needed.", "anchors": ["mat/dense.go:Reshape", "mat/dense.go:Flatten", "mat/dense.go:PadRows", "mat/dense.go:PadColumns", "mat/dense.go:AppendRows", "mat/dense.go:Augment", "mat/dense.go:SwapInPlace", "mat/dense.go:ResizeVector"]}
{"id": "C17", "title": "Matrix product", "statement": "a.Mul(b) has element (i,j) equal to the sum over k of a(i,k)*b(k,j), through every code path (vector dot, matrix-vector, row-accumulating kernel that skips zero entries), and a.MulT(v) equals a.T().Mul(v); both fail exactly on mismatched dimensions.", "quantifier": "every pair of conforming matrices over any commutative semiring", "why_tests_cant": "Three different kernels must agree for all shapes and zero patterns.", "anchors": ["mat/dense.go:Mul", "mat/dense.go:MulT", "mat/internal/f64/matmul.go"]}
{"id": "C18", "title": "Changing the shape of one matrix does not change another", "statement": "Reshaping, flattening or transposing a matrix in place, or taking Softmax of it, never changes the shape of any other matrix. (Violated: results of Clone, Add, Apply and others share the shape of their receiver.)", "quantifier": "every history of matrix operations", "why_tests_cant": "Sharing shows only under particular histories of calls.", "anchors": ["mat/dense.go:Clone", "mat/dense.go:ReshapeInPlace", "mat/dense.go:FlattenInPlace", "mat/dense.go:TransposeInPlace", "mat/dense.go:Softmax", "mat/dense_new.go:WithShape"]}
{"id": "C19", "title": "Softmax is a probability distribution", "statement": "Softmax of a non-empty vector has positive entries summing to 1, is invariant under adding a constant to all entries, preserves order, and ArgMax returns the first index of a maximal entry.", "quantifier": "every non-empty real vector", "why_tests_cant": "Universally quantified real inequality.", "anchors": ["mat/dense.go:Softmax", "mat/dense.go:ArgMax", "mat/gradfn/softmax.go"]}
{"id": "C20", "title": "SparseMax is the projection onto the simplex", "statement": "SparseMax(x) has non-negative entries summing to 1 for every vector x, with y_i = max(x_i - tau, 0) for one threshold tau. (Violated when the largest entry is smaller than the largest probability.)", "quantifier": "every non-empty real vector", "why_tests_cant": "Depends on the sign and size of the maximum; sampled inputs miss it.", "anchors": ["mat/gradfn/sparsemax.go:Forward", "mat/gradfn/sparsemax.go:sparseMaxCommon", "mat/dense.go:ClipInPlace"]}
{"id": "C21", "title": "Element-wise gradients are derivatives", "statement": "For every element-wise operator (Tanh, Sigmoid, Exp, Log, Sqrt, Pow, Square, ELU, CELU, SELU, LeakyReLU, ReLU, Swish, SwishB, Mish, SoftPlus, SoftShrink, Softsign, HardTanh, HardSigmoid, Threshold, Tan, Sin, Cos, Reciprocal, Neg, Abs, Div, Prod, ...) the factor used in Backward is the derivative of the forward function at every point where the latter is differentiable.", "quantifier": "every real input (and hyper-parameter) away from the stated kinks", "why_tests_cant": "Finite differences sample and have tolerance.", "anchors": ["mat/gradfn/misc.go", "mat/gradfn/unaryelementwise.go", "mat/gradfn/div.go", "mat/gradfn/swishb.go"]}
{"id": "C22", "title": "Structural and linear gradients are adjoints", "statement": "For every linear operator (Add, Sub, Mul in each argument, MulT, Dot, Concat, Stack, Slice, At, RowView, ColView, T, Reshape, Flatten, ReduceSum, ReduceMean, AppendRows, RotateR, Affine) Backward is the adjoint of Forward: <Forward(v), g> = <v, Backward(g)> for all v and g.", "quantifier": "every shape, every operand and every gradient over a commutative ring", "why_tests_cant": "Index arithmetic of every shape.", "anchors": ["mat/gradfn/mul.go", "mat/gradfn/mult.go", "mat/gradfn/dot.go", "mat/gradfn/concat.go", "mat/gradfn/stack.go", "mat/gradfn/slice.go", "mat/gradfn/transpose.go", "mat/gradfn/reducesum.go", "mat/gradfn/appendrows.go", "mat/gradfn/affine.go"]}
{"id": "C23", "title": "A gradient has the shape of its value", "statement": "The matrix that an operator's Backward accumulates on an operand has the operand's shape, so that accumulating the contributions of several consumers never fails. (Violated by ReduceSum/ReduceMean/Max/Min/Concat/AppendRows for operands that are not column vectors or not rows.)", "quantifier": "every operator and every operand shape", "why_tests_cant": "Needs all shapes and all pairs of consumers.", "anchors": ["mat/gradfn/reducesum.go:Backward", "mat/gradfn/reducemean.go:Backward", "mat/gradfn/max.go:Backward", "mat/gradfn/min.go:Backward", "mat/gradfn/concat.go:Backward", "mat/gradfn/appendrows.go:Backward", "mat/dense_grad.go:AccGrad"]}
{"id": "C24", "title": "Max pooling takes the maximum of each window", "statement": "MaxPooling(x, r, c) gives at (i,j) the maximum of the r-by-c window of x at (i*r, j*c), and Backward sends the gradient to the position of that maximum. (Violated for windows without positive entries and for non-square windows.)", "quantifier": "every matrix, every window size dividing its dimensions", "why_tests_cant": "The sign pattern and the shape of the window matter; tests used positive square windows.", "anchors": ["mat/gradfn/maxpooling.go:Forward", "mat/gradfn/maxpooling.go:Backward"]}
{"id": "C25", "title": "ScalarMax and LogSumExp", "statement": "ScalarMax(xs...) is the maximum of xs (violated when all are negative); LogSumExp is log(sum exp x_i) in both its forms and Softmax/LogSoftmax agree with it.", "quantifier": "every non-empty list of real scalars", "why_tests_cant": "Universally quantified over reals.", "anchors": ["mat/gradfn/scalarmax.go:Forward", "ag/operators.go:LogSumExp", "ag/operators.go:LogSoftmax"]}
{"id": "C26", "title": "Optimize finishes its work before returning", "statement": "When Optimizer.Optimize returns, every parameter delivered by the parameter channel that has a gradient has been updated exactly once, an error of a strategy is returned, and nothing panics afterwards. (Violated: the last goroutines are not awaited.)", "quantifier": "every list of parameters, every outcome of the strategy on them, every schedule, every concurrency limit", "why_tests_cant": "The loss of updates or the late panic depends on the schedule.", "anchors": ["optimizers/optimizer.go:Optimize", "nn/model.go:Parameters", "nn/model.go:StreamParams"]}
{"id": "C27", "title": "Optimizer update rules", "statement": "After any sequence of gradients, the parameter value and state produced by SGD (plain, momentum, Nesterov), AdaGrad, RMSProp, Adam, AdamW, RAdam and LAMB are those of the published recurrences (e.g. moments are the exponentially weighted sums, the bias-corrected first moment of a constant gradient is that gradient); the gradient is absent afterwards; with a foreign state the parameter is left unchanged and an error is returned.", "quantifier": "every sequence of gradients, every configuration", "why_tests_cant": "Histories are unbounded.", "anchors": ["optimizers/sgd/sgd.go", "optimizers/adagrad/adagrad.go", "optimizers/adam/adam.go", "optimizers/rmsprop/rmsprop.go", "optimizers/radam/radam.go", "optimizers/lamb/lamb.go"]}
{"id": "C28", "title": "Gradient clipping", "statement": "NormClipper leaves gradients unchanged when their total norm is below the limit and otherwise rescales all by one common factor in (0,1) so that the total norm does not exceed MaxNorm; ValueClipper brings every entry into [-v,v] and keeps entries already there; neither fails on parameters that have no gradient (violated).", "quantifier": "every list of gradients, every norm type > 1 (or infinity), every limit", "why_tests_cant": "Universally quantified real inequality over lists of matrices.", "anchors": ["optimizers/gradclipper/clipper.go", "mat/dense.go:ClipInPlace"]}
{"id": "C29", "title": "Learning-rate decay", "statement": "Exponential decay keeps the rate between final and init, never increases it and reaches final exactly after the configured number of steps; hyperbolic decay never increases the rate and keeps it at least final (violated below final).", "quantifier": "every configuration and every number of steps", "why_tests_cant": "Iterated real recurrence of arbitrary length.", "anchors": ["optimizers/decay/exponential/exponential.go:Decay", "optimizers/decay/hyperbolic/hyperbolic.go:Decay"]}
{"id": "C30", "title": "Parameter traversal visits every parameter", "statement": "ForEachParam calls the function exactly once for each occurrence of a parameter in a model's exported fields, slices, maps and nested models, in field order; ForEachParamStrict skips nested models; Apply visits every nested model once. (Violated for slices containing a nil or foreign element before a parameter, and for nested models with their own traversal in strict mode.)", "quantifier": "every model structure", "why_tests_cant": "Structures are arbitrary trees.", "anchors": ["nn/traversal.go", "nn/model.go:ForEachParam", "nn/model.go:ForEachParamStrict", "nn/model.go:Apply"]}
{"id": "C31", "title": "Sparse embeddings bookkeeping", "statement": "The embedding model traverses exactly the embeddings whose gradient is present, CountEmbedWithGrad is their number, ZeroGrad clears them all, and Encode gives one tensor per index (repeated indices share gradients) or an error if some index is out of range. (Violated after an optimizer clears a parameter's gradient directly and after loading a serialized model.)", "quantifier": "every history of Encode, AccGrad, ZeroGrad, optimizer steps and reloads", "why_tests_cant": "The set must agree after any interleaving of operations.", "anchors": ["nn/embedding/model.go", "nn/embedding/embedding.go"]}
{"id": "C32", "title": "CRF loss normalises over all label sequences", "statement": "The CRF total score is log of the sum over all label sequences of exp(score), the gold score is the score of the given sequence, hence the loss is non-negative and exp(-loss) summed over all label sequences is 1.", "quantifier": "every number of labels >= 1, every non-empty sequence of emission vectors, every transition matrix, every target", "why_tests_cant": "The number of paths is exponential; tests compare one number.", "anchors": ["nn/crf/crf.go:NegativeLogLoss", "nn/crf/crf.go:totalScore", "nn/crf/crf.go:goldScore"]}
{"id": "C33", "title": "Viterbi decoding is optimal", "statement": "Decode returns a label sequence of the right length with labels in range whose score is at least the score of every other label sequence.", "quantifier": "every number of labels >= 1, every emission sequence, every transition matrix", "why_tests_cant": "Optimality over exponentially many sequences.", "anchors": ["nn/crf/viterbi.go:Viterbi", "nn/crf/viterbi.go:viterbiStep", "nn/crf/viterbi.go:viterbiStepStart", "nn/crf/viterbi.go:viterbiStepEnd"]}
{"id": "C34", "title": "Attention: convexity, causality and incremental decoding", "statement": "Attention weights are a probability distribution; with the causal mask the output at position i depends only on keys and values up to i; feeding tokens one by one with the cache gives the same outputs as one masked pass (violated for chunks of more than one token after a non-empty cache).", "quantifier": "every sequence length, every key/value/query vectors, every split of the sequence", "why_tests_cant": "All lengths and all splits.", "anchors": ["nn/attention/attention.go:ScaledDotProductAttention", "nn/attention/attention.go:makeCausalMask", "nn/attention/selfattention/model.go:Forward"]}
{"id": "C35", "title": "Multi-head attention can be trained", "statement": "Multi-head attention's output at position i is the merge layer applied to the concatenation of every head's output at i, and its graph is acyclic so that Backward through it returns. (Violated: the first concatenation becomes its own operand.)", "quantifier": "every number of heads >= 1 and every sequence length >= 1", "why_tests_cant": "The value is right at once; the corrupted operand list shows only later, for all sizes.", "anchors": ["nn/attention/multiheadattention/model.go:project", "mat/gradfn/concat.go:NewConcat", "ag/operator.go:Operands"]}
{"id": "C36", "title": "Bidirectional RNN alignment", "statement": "Output i of a BiRNN merges the forward network's output at i with the backward network's output for the same input position i, whatever the schedule of the two goroutines, for every merge mode.", "quantifier": "every sequence and every pair of length-preserving models", "why_tests_cant": "All lengths; the reversal is in place by swaps.", "anchors": ["nn/birnn/birnn.go:Forward", "nn/birnn/birnn.go:reversed", "nn/birnn/birnn.go:merge"]}
{"id": "C37", "title": "Recurrent networks: bounded, streaming, causal", "statement": "For SRN, GRU and LSTM (without refined gates) every output component lies in (-1,1); Forward over a sequence equals stepwise Next, so that a split sequence carried by the state gives the same outputs, and output i depends only on inputs up to i.", "quantifier": "every sequence, every parameters, every split", "why_tests_cant": "Arbitrary length sequences.", "anchors": ["nn/recurrent/srn/srn.go", "nn/recurrent/gru/gru.go", "nn/recurrent/lstm/lstm.go"]}
{"id": "C38", "title": "Normalisation layers", "statement": "The normalised vector inside LayerNorm has mean 0 and mean square var/(var+eps) < 1; RMSNorm has root-mean-square below 1; FixNorm and ScaleNorm have norm below 1; outputs are invariant to the shift (LayerNorm) of the input; BatchNorm's running statistics are the exponential averages of the batch statistics.", "quantifier": "every vector, every eps > 0, every history of batches", "why_tests_cant": "Real identities over all vectors.", "anchors": ["nn/normalization/layernorm/layernorm.go", "nn/normalization/rmsnorm/rmsnorm.go", "nn/normalization/fixnorm/fixnorm.go", "nn/normalization/scalenorm/scalenorm.go", "nn/normalization/batchnorm/batchnorm.go"]}
{"id": "C39", "title": "Losses", "statement": "CrossEntropy(x,c) = -log softmax(x)_c >= 0; focal loss with gamma 0 is cross-entropy and is between 0 and it for gamma >= 0; MSE and MAE are non-negative and zero exactly when x = y; Perplexity = 1/softmax(x)_c; quantisation losses vanish exactly on their targets; sequence losses are the sums or means of the element losses.", "quantifier": "every vector, class index and sequence", "why_tests_cant": "Universally quantified over reals.", "anchors": ["losses/losses.go"]}
{"id": "C40", "title": "Random permutations and ranges", "statement": "For every stream of random bits: Perm(n) is a permutation of 0..n-1, Shuffle permutes the slice, Uint64n(n) < n, Float64 is in [0,1), Read depends only on the generator's stream and not on how reads are split; GetUniqueRandomInt returns distinct valid integers (but never 0: violated completeness).", "quantifier": "every source of 64-bit values, every n", "why_tests_cant": "Quantifies over all random streams.", "anchors": ["mat/internal/rand/rand.go:Perm", "mat/internal/rand/rand.go:Shuffle", "mat/internal/rand/rand.go:Uint64n", "mat/internal/rand/rand.go:Float64", "mat/internal/rand/rand.go:read", "mat/rand/misc.go"]}
{"id": "C41", "title": "The generator is a full-period 128-bit congruential generator", "statement": "The two-word arithmetic of the generator implements s -> a*s+c mod 2^128; its state returns to the start after exactly 2^128 steps and not before; saving and restoring its state reproduces the same stream; equal seeds give equal streams.", "quantifier": "every state and every number of steps", "why_tests_cant": "The period cannot be run.", "anchors": ["mat/internal/rand/rng.go"]}
{"id": "C42", "title": "Matrix serialisation round trip", "statement": "Unmarshalling what MarshalBinary produced yields a matrix with the same shape, elements and requires-gradient flag and no gradient, for dimensions below 2^31.", "quantifier": "every matrix", "why_tests_cant": "All shapes and contents.", "anchors": ["mat/dense_marshaling.go"]}
{"id": "C43", "title": "Convolution", "statement": "Conv1D/Conv2D output (i,j) is the sum over the kernel of kernel times the window at (i*stride, j*stride), fails exactly when the stride does not fit, and its gradients are the adjoints.", "quantifier": "every kernel, input and stride", "why_tests_cant": "All shapes.", "anchors": ["nn/convolution/convolution.go"]}
{"id": "C44", "title": "Dropout", "statement": "Dropout with probability p yields for each element either 0 or x/(1-p), the same mask multiplies the gradient, p = 0 is the identity and p = 1 yields zeros.", "quantifier": "every matrix, every p in [0,1], every stream of uniform numbers in [0,1)", "why_tests_cant": "Quantifies over random streams.", "anchors": ["mat/gradfn/dropout.go", "mat/rand/bernulli/bernulli.go", "ag/operators.go:Dropout"]}
{"id": "C45", "title": "Initialisers stay in their range", "statement": "Uniform and XavierUniform fill every element with a value in [min,max); Constant fills every element; Achlioptas yields only -sqrt3, 0, sqrt3; every element of the matrix is written exactly once in row-major order of the stream.", "quantifier": "every matrix, every stream of uniform numbers", "why_tests_cant": "Quantifies over random streams.", "anchors": ["initializers/initializers.go", "mat/rand/uniform/uniform.go"]}
{"id": "C46", "title": "Printing a matrix never fails", "statement": "Formatting a matrix with the documented verbs never panics. (Violated with an explicit width larger than the widest element.)", "quantifier": "every matrix and every format width and precision", "why_tests_cant": "All widths.", "anchors": ["mat/dense_formatting.go"]}
{"id": "C47", "title": "Gradients of maxima, softmax and sparsemax", "statement": "Max, Min, ReduceMax, ScalarMax, Softmax, SparseMax and SparseMaxLoss send back the transposed Jacobian of their forward function wherever that function is differentiable; where two operands of Max or Min tie the gradient still distributes the incoming one. (Violated: ties lose the gradient, ScalarMax of negative values sends it to the first operand.)", "quantifier": "every operand, every output gradient", "why_tests_cant": "Derivatives at every point of an infinite domain.", "anchors": ["mat/gradfn/max.go", "mat/gradfn/min.go", "mat/gradfn/reducemax.go", "mat/gradfn/scalarmax.go", "mat/gradfn/softmax.go", "mat/gradfn/sparsemax.go", "mat/gradfn/sparsemaxloss.go"]}
{"id": "C48", "title": "Gradients end to end", "statement": "For any acyclic graph of library operators that are correct at the values at hand, Backward returns under every schedule (when the operators serve all operands) and element i of the gradient it leaves on a trainable leaf is the partial derivative of the scalar output in element i of that leaf; constants and StopGrad results count as constants.", "quantifier": "every graph, every choice of operators and values, every schedule", "why_tests_cant": "Combines the concurrent protocol with the calculus of every operator.", "anchors": ["ag/backward.go", "ag/operator.go", "mat/gradfn"]}
{"id": "C49", "title": "Weighted choice", "statement": "WeightedChoice returns index i exactly when the uniform number drawn lies in an interval of length dist[i]; with weights summing to 1 only indices of positive weight are chosen. (If the weights sum to less than the number drawn, index 0 is chosen whatever its weight.)", "quantifier": "every list of non-negative weights and every number drawn in [0,1)", "why_tests_cant": "Quantifies over all distributions and draws.", "anchors": ["mat/rand/misc.go:WeightedChoice"]}
{"id": "C50", "title": "Derived operators", "statement": "Sum, Mean, Maximum and Minimum of a non-empty list of tensors of one shape are the element-wise sum, mean, maximum and minimum, and fail on an empty list or a size mismatch; BiLinear is x'Wy and BiAffine adds u'x + v'y + b; PositiveELU is exp(x) up to 0 and x+1 above, hence positive; the row and column views, SeparateMatrix, SeparateVec and SplitVec return exactly the parts of their operand, in order, and Stack/Concat put them back together; Map2 and Pad act position by position.", "quantifier": "every list of tensors, every size", "why_tests_cant": "Universal over sizes and lists, including the empty ones.", "anchors": ["ag/operators.go", "ag/ops.go", "nn/flatten/flatten.go"]}
{"id": "C51", "title": "LogSumExp gradient", "statement": "Backpropagating g through LogSumExp gives g times the softmax of the input, also when the maximum is attained several times; the gradients sum to g.", "quantifier": "every non-empty vector and every incoming gradient", "why_tests_cant": "Universal over vectors; ties of the maximum are the hard case.", "anchors": ["ag/operators.go:LogSumExp", "mat/gradfn"]}
{"id": "C52", "title": "Activation registry", "statement": "Every activation constant has one name; ParseActivation accepts exactly these names, as written and in lower case, and returns the constant whatever order Go iterates the map in; Forward applies the documented formula to each element of each input, fails for unknown constants and for missing parameters.", "quantifier": "every string, every map iteration order, every activation, parameters and inputs", "why_tests_cant": "Map iteration order is random and the inputs are reals.", "anchors": ["nn/activation/types.go", "nn/activation/activation.go"]}
{"id": "C53", "title": "Highway and squared distance", "statement": "A highway layer returns t*f(Wx+b) + (1-t)*x with t = sigmoid(W_T x + b_T), so every element lies between the input and the transformed input; the squared-distance layer returns ||Bx||^2, never negative, and zero exactly when Bx = 0.", "quantifier": "every layer with matching sizes, every sequence of inputs", "why_tests_cant": "Universal over parameters and inputs.", "anchors": ["nn/highway/highway.go", "nn/sqrdist/sqrdist.go"]}
{"id": "C54", "title": "MLP-Mixer", "statement": "A mixer block maps a sequence of at most Channels vectors to a sequence of the same length: token mixing across the sequence and channel mixing across each vector, each on normalised inputs with a residual connection.", "quantifier": "every block, every sequence within the announced maximum length", "why_tests_cant": "Universal over parameters, lengths and inputs.", "anchors": ["nn/mlpmixer/mixerblock.go", "nn/mlpmixer/feedforward.go"]}
{"id": "C55", "title": "Spatial gating and gMLP", "statement": "The spatial gating unit multiplies the first half of every vector with the activated projection across the sequence of the normalised second halves; a gMLP pads its input with zero vectors to SeqLen, applies its layers in order and returns SeqLen vectors; no input gives no output, too long input is refused.", "quantifier": "every model with Dim*FFMult inner units, every input up to SeqLen", "why_tests_cant": "Universal over parameters, lengths and inputs.", "anchors": ["nn/sgu/model.go", "nn/gmlp"]}
{"id": "C56", "title": "Sentence-State LSTM", "statement": "Forward starts all hidden vectors, cells and the sentence vector at InitValue and updates all nodes Steps-1 times at once: a node from a window of its left neighbour, itself and its right neighbour (StartH and EndH at the borders), the sentence vector by the V matrices and its input by the U matrices; the sentence vector from the average of the hidden vectors and the gated sum of the cells. It returns one vector of OutputSize per input, for every InputSize and OutputSize.", "quantifier": "every model with the sizes of New, every non-empty sequence, every number of steps", "why_tests_cant": "The declared V of the input activation is not used, and equal in/out sizes hide the wrong matrix; only reasoning over all parameters and sizes shows what is computed.", "anchors": ["nn/gnn/slstm/slstm.go"]}
{"id": "C57", "title": "The locked generator", "statement": "However many goroutines share one LockedRand, their calls behave as if made one after the other in an order that respects real time; no call waits for ever, also when another call panics and the panic is recovered.", "quantifier": "every number of goroutines, every list of calls per goroutine, every schedule, every seed", "why_tests_cant": "Interleavings, and a panic in one goroutine that blocks another later.", "anchors": ["mat/rand/lockedrand.go", "mat/internal/rand/rand.go"]}
{"id": "C58", "title": "Vector kernels on amd64 compute what their documentation says", "statement": "Each of the 28 assembly routines for element-wise addition, subtraction, division, addition and multiplication by a constant, dot product and sum (32 and 64 bits, AVX and SSE), called with slices of sufficient length whose output is one of the inputs or disjoint from them, terminates, reads and writes only elements of its slices, stores exactly the element-wise result (bit for bit the one of the portable Go loop) and leaves all other memory unchanged; dot product and sum return the exact value when arithmetic does not round. Every routine chosen at start-up only has instructions the processor supports.", "quantifier": "all slice lengths, base addresses, memory contents, register contents, processor feature sets, and (for the element-wise routines) all element arithmetics", "why_tests_cant": "All matrix arithmetic runs through these hand-unrolled loops with alignment prologues and tails; an off-by-one there corrupts memory silently.", "anchors": ["mat/internal/matfuncs/add_amd64.s", "mat/internal/matfuncs/sub_amd64.s", "mat/internal/matfuncs/div_amd64.s", "mat/internal/matfuncs/addconst_amd64.s", "mat/internal/matfuncs/mulconst_amd64.s", "mat/internal/matfuncs/dotprod_amd64.s", "mat/internal/matfuncs/sum_amd64.s", "mat/internal/matfuncs/add_amd64.go:9-29", "mat/internal/matfuncs/add_purego.go:19-28"]}
{"id": "C59", "title": "In-place arithmetic does not depend on how the operands share memory", "statement": "AddInPlace and its siblings give the element-wise result of the old values of both operands, on every platform, also when the operands share memory.", "quantifier": "all base addresses and lengths of the operands", "why_tests_cant": "WithBacking keeps the caller's slice, so two matrices can be windows of one array; a loop that reads elements it has already overwritten gives prefix sums instead of sums.", "anchors": ["mat/internal/matfuncs/add_purego.go:19-28", "mat/internal/matfuncs/add_amd64.s:9-97", "mat/dense.go:432-450", "mat/dense.go:1455-1463"]}
{"id": "C60", "title": "Vector exponential and logarithm on amd64", "statement": "Exp32 and Log32 store at every position the exponential or logarithm of the old element at that position, whatever the length of the vector, the position and the processor, and write nothing else; a NaN gives a NaN, an infinity the limit, the logarithm of zero is minus infinity. The portable build gives the same.", "quantifier": "all lengths, base addresses, memory contents, both instruction sets, disjoint or identical slices, every arithmetic with commutative addition and multiplication", "why_tests_cant": "Which elements are handled by the vector routine, the zero correction and the scalar rest depends on the length modulo the width; tests compare random positive numbers only.", "anchors": ["mat/internal/matfuncs/exp_amd64.go:10-38", "mat/internal/matfuncs/log_amd64.go:12-58", "mat/internal/matfuncs/exp_amd64.s", "mat/internal/matfuncs/log_amd64.s", "mat/internal/matfuncs/exp.go", "mat/internal/matfuncs/log.go", "mat/dense.go:951-983"]}
{"id": "C61", "title": "The Zipf generator", "statement": "For s > 1 and v >= 1, Uint64 returns with probability one a value k in [0, imax], and each k with probability proportional to (v+k)^(-s); for other parameters NewZipf gives nil. In exact real arithmetic.", "quantifier": "all real s and v, all imax, all sequences of uniform numbers in [0,1)", "why_tests_cant": "A distribution over infinitely many sequences; the quick acceptance test and the candidate imax+1 at r = 0 are right only because of convexity.", "anchors": ["mat/internal/rand/zipf.go:28-77"]}
{"id": "C62", "title": "Comparison of matrices", "statement": "Equal and InDelta say whether two matrices have the same shape and equal elements, or elements at the same positions within delta. Equal is symmetric and a NaN is not within delta of anything.", "quantifier": "all matrices of 32-bit and 64-bit floats, all contents", "why_tests_cant": "Tests compare matrices of the same type without NaN; the test helpers of the library itself rest on these functions.", "anchors": ["mat/float/floatslice.go:14-131", "mat/matrix.go:265-277", "mat/matrix.go:326-335", "mat/mat_test_utils.go"]}
{"id": "C63", "title": "Dump and Load", "statement": "DumpToFile returns an error whenever the object did not reach the file, including a failing Close; what was saved without error is loaded again; a truncated file gives an error; several objects dumped to one stream can be loaded from it one after the other.", "quantifier": "all objects, all self-delimiting codecs, all failures of the system calls, all stream contents", "why_tests_cant": "Tests do not make Close fail and do not put two objects into one stream.", "anchors": ["nn/gob.go:14-66"]}
{"id": "C64", "title": "AXPY and cumulative sum kernels on amd64", "statement": "On amd64 the assembly AxpyUnitary, AxpyUnitaryTo (32 and 64 bits) and CumSum (64 bits) compute what the portable Go versions compute, for every length and every alignment, for operands that are the same slice or disjoint; they terminate, read and write only elements of their slices, and change nothing but the destination. So the matrix products built on them (MatrixMul, MulT) add the product to the result and change nothing else.", "quantifier": "all lengths, base addresses, memory contents, register contents at entry, element arithmetics; all matrix shapes", "why_tests_cant": "Tests try a few lengths and alignments; the unrolled loops, the alignment prologue and the tails make many paths, and an access one element past the end usually goes unnoticed.", "anchors": ["mat/internal/f32/asm32/axpyunitary_amd64.s:10-97", "mat/internal/f32/asm32/axpyunitaryto_amd64.s:10-98", "mat/internal/f64/asm64/axpyunitary_amd64.s:51-134", "mat/internal/f64/asm64/axpyunitaryto_amd64.s:51-140", "mat/internal/f64/asm64/cumsum_amd64.s:9-64", "mat/internal/f32/gonum.go:10-20", "mat/internal/f64/gonum.go:10-20", "mat/dense.go:762-800"]}
{"id": "C65", "title": "Matrix-vector product on amd64", "statement": "The assembly GemvN of 64 bits, called with increments of one, terminates, reads only elements of its slices, leaves y = alpha * A * x + beta * y for all numbers of rows and columns and every row stride, and changes nothing but y; the portable GemvN gives the same. So Mul of a 64-bit matrix with a column gives the product.", "quantifier": "all numbers of rows and columns, row strides, alpha, beta, base addresses, memory contents, register contents at entry; exact arithmetic", "why_tests_cant": "Three row groups times three column groups plus a clearing phase make dozens of paths; the repository's tests try a handful of shapes, and none without columns.", "anchors": ["mat/internal/f64/asm64/gemvN_amd64.s:233-530", "mat/internal/f64/asm64/ge_noasm.go:45-66", "mat/dense.go:735-747"]}
{"id": "C66", "title": "Constructors: shapes and behaviour of new models", "statement": "mat.NewDense gives a matrix of zeros for a valid shape (one or two non-negative sizes), the given data for a valid shape of their number in either option order, a column vector for data alone, and panics otherwise; the result always holds rows*cols elements. Every New function of the nn packages succeeds for all non-negative sizes with matrices of exactly the shapes its Forward needs, so that the model accepts the inputs it was made for (BiBiLSTM: the second layer takes the concatenated output of the first; multi-head attention: exactly if the heads divide the size). Before training: linear, SRN, GRU, LSTM, SLSTM, LayerNorm, RMSNorm, ScaleNorm give zeros; BatchNorm inference and the mixer are the identity, gMLP returns the padded input, highway the mean of the input and f(0).", "quantifier": "all sizes, options, activations without parameters, sequences", "why_tests_cant": "A constructor with swapped or wrong sizes makes a model that panics at the first input, or only for some sizes (non-square layers).", "anchors": ["mat/dense_new.go:14-155", "nn/linear/linear.go:30-35", "nn/recurrent/lstm/lstm.go:64-98", "nn/birnn/builders.go:14-37", "nn/mlpmixer/mixerblock.go:48-56", "nn/gmlp/model.go:43-62", "nn/gnn/slstm/slstm.go:94-129", "nn/attention/multiheadattention/model.go:36-69", "nn/embedding/model.go:36-48", "nn/normalization/batchnorm/batchnorm.go:36-44"]}
{"id": "C67", "title": "Training step of any program of library operators", "statement": "A program that builds its computation while it runs - creating leaves, calling StopGrad and calling any of the operators of package ag that are right at the operands they get, each on tensors that exist already - can be differentiated by the library: Backward of any outputs returns under every schedule of the goroutines; after Backward of a result with one element, every element of the gradient of a trainable leaf is the partial derivative of that result as computed by the program (results of StopGrad held constant); and if some gradient is not zero, one step of SGD without momentum at any small enough learning rate makes the result of the program smaller.", "quantifier": "all programs (any length, any sharing of tensors) over the listed operators, all leaf values of matching dimensions, all schedules of the goroutines of Backward, all learning rates below a positive bound", "why_tests_cant": "This is the promise of an automatic differentiation library as a whole: users call operators and optimise; it needs the operators' derivatives, the scheduling protocol, the handling of StopGrad and RequiresGrad, and the optimiser to fit together.", "anchors": ["ag/operator.go:90-300", "ag/backward.go:23-75", "ag/gradientblocker.go:15-44", "mat/gradfn/", "optimizers/sgd/sgd.go:80-126", "optimizers/optimizer.go:37-78"]}
{"id": "C68", "title": "Recurrent networks are trained by back-propagation through time", "statement": "For a simple recurrent network, a GRU or an LSTM (with or without refined gates) of any size, applied with Forward to a sequence of any length n >= 1 and compared with targets by MSESeq (summed or averaged): the program of operators that the code records computes the error given by the network's recurrence; Backward of the error returns under every schedule of its goroutines; the gradient it leaves in every element of every weight matrix and bias is the partial derivative of the error in that element; and unless all gradients are zero, one step of plain SGD with a small enough learning rate makes the error strictly smaller.", "quantifier": "all input and output sizes, all weights, inputs and targets of fitting dimensions, all sequence lengths, both reductions, all schedules of Backward", "why_tests_cant": "This is what users of the recurrent models rely on when training: the forward code, the operators' backward passes, the concurrent backward traversal and the optimizer must fit together, over sequences of every length.", "anchors": ["nn/recurrent/srn/srn.go:44-67", "nn/recurrent/gru/gru.go:61-102", "nn/recurrent/lstm/lstm.go:111-155", "losses/losses.go:22-28", "losses/losses.go:113-122", "ag/backward.go", "optimizers/optimizer.go:45-70"]}
{"id": "C69", "title": "Networks of layers are trained", "statement": "For every network built from linear layers, activations (tanh, sigmoid, swish, mish, softsign, ReLU), softmax, layer and RMS normalisation, highway layers, SRN, GRU and LSTM layers and self-attention by stacking, residual connections and bidirectional combination (sum, product, average, concatenation), with at least one parameter, applied to a sequence of any length n >= 1 and compared with targets by MSESeq: the program of operators that the code records computes the error of the function the network stands for; Backward of it returns under every schedule; each gradient left in a parameter is the partial derivative of the error; and unless all gradients are zero a small enough SGD step makes the error strictly smaller. No ReLU and no square root may be evaluated at 0.", "quantifier": "all networks (any nesting and depth), all sizes, parameters, inputs and targets of fitting dimensions, all sequence lengths, both reductions, all schedules of Backward", "why_tests_cant": "Users assemble layers into networks and train them; each layer being right is not enough, the layers, the backward traversal and the optimizer must compose.", "anchors": ["nn/linear/linear.go:44-50", "nn/activation/activation.go:36-73", "nn/normalization/layernorm/layernorm.go:43-58", "nn/normalization/rmsnorm/rmsnorm.go:42-54", "nn/highway/highway.go:46-62", "nn/attention/attention.go:19-50", "nn/attention/selfattention/model.go:76-101", "nn/birnn/birnn.go:56-100", "nn/gmlp/residual.go:35-42", "nn/model.go:108-117", "losses/losses.go:113-122", "ag/backward.go"]}
{"id": "C70", "title": "Gradients of the samples of a batch add up, and the regression example learns its objective", "statement": "When the loss of every sample of a batch is computed and ag.Backward called for it without clearing gradients in between, the loop ends and what is added to the gradients of the parameters is the gradient of the sum of the losses of all samples; a small SGD step then reduces that sum. For examples/regression, n epochs of 1000 samples and one step of SGD with Nesterov momentum can be run for every n, the parameters converge to those of the objective 3x+1 whatever W is at the start, and after the 100 epochs of the program, with |W| at most 30 at the start, both are within 0.005 of 3 and 1, so that the program prints 3.00 and 1.00.", "quantifier": "every list of samples (every network of C69 and every batch of sequences of any lengths), every value of the parameters and gradients before, every schedule of every Backward, every number of epochs", "why_tests_cant": "A test runs one seed and one schedule and compares one final number; convergence for every start and every schedule is a limit statement.", "anchors": ["examples/regression/main.go:main", "mat/dense_grad.go:AccGrad", "optimizers/sgd/sgd.go:OptimizeParams", "losses/losses.go:MSE"]}
{"id": "C71", "title": "The vector routines are chosen according to the processor", "statement": "At start the package asks the processor (CPUID) and the operating system (XGETBV) which instruction sets may be used, then applies the fields cpu.<feature>=on|off of GODEBUG. The initialisation never panics. HasAVX and HasAVX2 are true exactly when AVX, AVX2 may be used, HasAVX and HasFMA together exactly when FMA may be used, unless the last field of GODEBUG about that feature (by name or by 'all') says off; SSE2 cannot be switched off; nothing can be switched on that was not detected. So, on every amd64 processor and for every GODEBUG, a vector function only executes instructions that the processor knows.", "quantifier": "all CPUID and XGETBV answers, all strings GODEBUG, all functions, all arguments", "why_tests_cant": "a wrong choice ends the program with an invalid-opcode exception, or corrupts registers the operating system does not save", "anchors": ["mat/internal/matfuncs/cpu/cpu_x86.go:14-145", "mat/internal/matfuncs/cpu/cpu.go:198-287", "mat/internal/matfuncs/matfuncs_amd64.go:11-15", "mat/internal/matfuncs/dotprod_amd64.go:9-19", "mat/internal/matfuncs/sum_amd64.go:9-19"]}
{"id": "C72", "title": "Norm, Normalize2, DoNonZero, Copy, SetData and Zeros of a dense matrix", "statement": "For a vector and a positive power p, Norm(p) is the p-norm (the p-th root of the sum of the p-th powers of the absolute values). Normalize2 returns a vector of the same shape and direction with Euclidean length one, and the zero vector unchanged. DoNonZero calls its function exactly once for each element that is not zero, with its row, column and value, in row-major order. Copy makes the receiver equal to the argument and panics exactly when the dimensions differ; SetData replaces all elements and panics exactly when their number differs; Zeros sets every element to zero and keeps the shape.", "quantifier": "all vectors and powers p > 0; all well-formed matrices", "why_tests_cant": "Norms are used for gradient clipping and normalisation; a missing absolute value gives a silently wrong length.", "anchors": ["mat/dense.go:1287-1309", "mat/dense.go:1408-1418", "mat/dense.go:1444-1449", "mat/dense.go:68-74", "mat/dense.go:104-109"]}
{"id": "C73", "title": "NormFloat64 and ExpFloat64 sample the distributions they document", "statement": "NormFloat64 and ExpFloat64 (ziggurat method) return numbers of the documented ranges, with the density of the standard normal distribution and of the exponential distribution with rate 1; with the library's generator they always return.", "quantifier": "all sources of words (ranges), all states of the generator (termination), all points outside a window of width 2e-4 (density), all roundings of the tables to float32", "why_tests_cant": "weights of models are initialised with these numbers; a wrong entry of a table of 128 or 256 numbers would distort the distribution without any visible failure", "anchors": ["mat/internal/rand/normal.go", "mat/internal/rand/exp.go", "mat/rand/normal/normal.go"]}
{"id": "C74", "title": "Reductions, ranges and special matrices", "statement": "Max and Min return the greatest and the least element and panic exactly on an empty matrix; Sum is the sum of the elements; CumSum of a vector is the column of the partial sums; Range(start, end) of a vector is the column of the elements from start to before end and panics unless 0 <= start <= end <= size; ClipInPlace moves each element to the nearest value within the limits and panics when max < min; CreateIdentityMatrix has 1 exactly on the diagonal, CreateOneHotVector has 1 exactly at the given index and panics when it is outside; Equal holds exactly for the same shape and elements.", "quantifier": "For all matrices, ranges, sizes and indices", "why_tests_cant": "Losses, decoders, normalisations and the training targets use these; an off-by-one or an unnoticed out-of-range access silently gives wrong values", "anchors": ["mat/dense.go:1012-1060", "mat/dense.go:1115-1153", "mat/dense_new.go:157-192", "mat/dense.go:822-842"]}
{"id": "C75", "title": "Time steps of a training loop", "statement": "In a training loop that accumulates gradients and calls Optimizer.Optimize once per iteration, the k-th update of a parameter is the k-th update of the published method of the chosen strategy: for Adam, RAdam and LAMB with the bias corrections (and the rectification) of time step k, for SGD, AdaGrad and RMSProp with the step of the method, which has no clock.", "quantifier": "for every configuration, parameter and sequence of gradients of the parameter's shape", "why_tests_cant": "Optimizer.Optimize is the only interface the examples use; the time step is advanced by separate methods (IncExample, IncBatch) which the interface OptimizationStrategy does not contain.", "anchors": ["optimizers/optimizer.go:15-83", "optimizers/adam/adam.go:68-200", "optimizers/radam/radam.go", "optimizers/lamb/lamb.go", "examples/sinusoid/main.go:95-130"]}
{"id": "C76", "title": "Backward of several results with gradients given by the caller", "statement": "Backward(ys...) of any number of results of any sizes, whose gradients G were given with AccGrad (a result of one element without gradient counts with the gradient 1), adds to the gradients of the trainable leaves exactly the derivative of the sum of the products G*y; it fails if and only if a result without gradient does not have exactly one element.", "quantifier": "for every program of the listed operators, every choice of different results, every gradients given, every schedule and every direction in which the leaves move", "why_tests_cant": "Tests use single scalar losses; the weighting with given gradients and the interplay of several results that depend on each other is a statement about derivatives of all programs.", "anchors": ["ag/backward.go", "ag/operator.go:139-260", "examples/addition/main.go"]}
{"id": "C77", "title": "The example programs", "statement": "The examples do what they say: addition prints 7 and the gradients 0.5 and 0.5; perceptron prints 0.999; sinusoid generates inputs in (-pi, 2 pi) with the sines as targets, initialises the weights, trains its network with the gradients of the mean squared error, ends after at most 1000 epochs and earlier only when the printed average loss is below 0.00001, and compares its predictions with the sine.", "quantifier": "for every schedule of Backward, every random source, every weights and batches at which no rectified unit gets exactly 0, and every behaviour of the batches", "why_tests_cant": "The examples have no tests; they print and are not run by the test suite.", "anchors": ["examples/addition/main.go", "examples/perceptron/main.go", "examples/sinusoid/main.go"]}
{"id": "C78", "title": "The strategies go downhill", "statement": "For parameters not optimised before, the first step of each of the six strategies (SGD with or without momentum and Nesterov's rule, AdaGrad, RMSProp, Adam, RAdam, LAMB; no weight decay, settings accepted by NewConfig, positive epsilon) moves every element against the sign of its gradient and leaves elements with gradient zero in place; hence, unless all gradients are zero, every small enough rate makes the sum of the losses of the batch smaller. AdaGrad and RMSProp do so at every later step too.", "quantifier": "All batches, programs or networks, schedules, parameter values, settings, numbers of epochs before", "why_tests_cant": "Training must reduce the loss: a wrong sign, a wrong moment or a missing bias correction in a strategy shows here, for the whole chain from the samples to the new parameters.", "anchors": ["optimizers/adam/adam.go:74-185", "optimizers/sgd/sgd.go:80-126", "optimizers/adagrad/adagrad.go:70-89", "optimizers/rmsprop/rmsprop.go:71-97", "optimizers/radam/radam.go:58-148", "optimizers/lamb/lamb.go:60-168", "optimizers/optimizer.go:35-75"]}
{"id": "C79", "title": "Rounding errors of sums, dot products and matrix products", "statement": "When every floating-point operation rounds its exact result with a relative error of at most u, the result of DotProd on n elements differs from the exact dot product by at most ((1+u)^n - 1) times the sum of the absolute values of the products, and the result of Sum by at most ((1+u)^(n-1) - 1) times the sum of the absolute values: for the assembly routines on every processor and for the portable loops. So results on different processors agree up to twice that bound, and sums of numbers of one sign have a small relative error. The elements of Mul and MulT and the result of DotUnitary satisfy the bound of a dot product of their length. For float32 words, with subnormal numbers, infinities and NaN: whatever memory and registers hold, if the result of DotProd or Sum is finite then every element is finite and the result is within the bound with u = 2^-24, when 2^-63 is added to the magnitudes of the elements to account for underflow.", "quantifier": "All rounding functions with relative error at most u (idempotent; no overflow or underflow), processors, element sizes, lengths, alignments, contents of memory and registers", "why_tests_cant": "The tests compare a few results on the machine at hand with a tolerance; how the lanes are accumulated and combined decides the error for every input.", "anchors": ["mat/internal/matfuncs/dotprod_amd64.s", "mat/internal/matfuncs/sum_amd64.s", "mat/internal/matfuncs/dotprod_purego.go:19-28", "mat/internal/matfuncs/sum_purego.go:19-24", "mat/dense.go:681-819", "mat/internal/f32/gonum.go:11-22"]}
{"id": "C80", "title": "Networks are trained on classes and on absolute errors", "statement": "For every network of layers (as in C69), every sequence length and every choice of classes, the program that runs the network and CrossEntropySeq (or, summed over the outputs, WeightedCrossEntropy, FocalLoss, WeightedFocalLoss or Perplexity) computes the sum or mean of -log p_c (resp. w_c\u00b7(-log p_c), (1-p_c)^\u03b3\u00b7(-log p_c), ..., 1/p_c), where p is the softmax of the output scores; Backward of it returns under every schedule and adds to every parameter's gradient the partial derivatives of that loss, and a small enough step of gradient descent reduces it. This holds also where several scores share the maximum that LogSumExp subtracts. The same holds for MAESeq and the absolute error, where no output equals its target.", "quantifier": "all networks of the given layers, all lengths, classes, weights, exponents, parameters and inputs, all schedules of the backward goroutines", "why_tests_cant": "CrossEntropy is what classifiers and taggers are trained with. The maximum taken by LogSumExp for numerical safety is not differentiable at ties, and ties are what zero-initialised output layers produce; a wrong treatment of the maximum would spoil the first training steps.", "anchors": ["losses/losses.go:13-19", "losses/losses.go:39-88", "losses/losses.go:125-146", "ag/operators.go:507-516", "mat/gradfn/reducemax.go:33-51", "mat/gradfn/at.go:26-43"]}
{"id": "C81", "title": "Portable vector and matrix routines with increments", "statement": "The portable AxpyInc, AxpyIncTo, ScalInc, ScalIncTo, DotInc, GemvN, GemvT and Ger compute what their comments say for every number of elements, every row stride and all positive and negative increments (the elements of a vector with a negative increment are counted from its end), with 64-bit wrap-around of the indices; they panic on no vector that lies in its slice, and they change no element outside the vector or matrix they are to change. The same for the routines over whole slices and for L1Norm, L1NormInc, L1Dist, LinfDist, CumProd, Add, Div and DivTo; LinfDist passes over NaN unless every difference is NaN.", "quantifier": "all lengths, strides, increments, contents; any arithmetic in which sums and products commute", "why_tests_cant": "The increments and the unsigned wrap-around of negative ones make a space that the tests sample at a few values.", "anchors": ["mat/internal/f64/asm64/axpy.go", "mat/internal/f64/asm64/scal.go", "mat/internal/f64/asm64/dot.go", "mat/internal/f64/asm64/ge_noasm.go", "mat/internal/f64/asm64/stubs_noasm.go", "mat/internal/f32/asm32/gemv.go", "mat/internal/f32/asm32/ge_noasm.go", "mat/internal/f32/asm32/stubs_noasm.go", "mat/internal/f32/asm32/scal.go"]}
{"id": "C82", "title": "Training a network of layers with a conditional random field on top computes the derivatives of the negative log likelihood", "statement": "When crf.Model.NegativeLogLoss is applied to the outputs of any network built from the layers of the library (at least one parameter) on a sequence of n >= 1 inputs, with target labels below the size of the field, the code does not panic; the loss is -log of exp(score(target)) divided by the sum, over all sequences of n labels, of exp(score); and Backward leaves in every parameter of the network and in the matrix of transition scores exactly the partial derivatives of that loss.", "quantifier": "for all networks of layers, all sequence lengths, numbers of labels, target sequences, parameter and input values (over the reals; no ReLU at its kink)", "why_tests_cant": "A tagger whose gradients are wrong (a missed transition, a wrong start or end state, the shared transition matrix receiving only part of its gradient) still trains, to a worse model, without any error.", "anchors": ["nn/crf/crf.go:43-104", "ag/operators.go:20-28", "ag/operators.go:424-431"]}
{"id": "C83", "title": "Training a tagger: embeddings, a network and a loss over sentences", "statement": "For an embedding model, any network of the modelled layers on top of it, and either the loss of a conditional random field or a loss of classes for the labels: running the model on every sentence of a batch and Backward on every loss ends, and what it adds to the gradients of the network, of the transition scores and of the vectors of the words (a word that occurs several times included) is the gradient of the sum of the losses; a small enough step of SGD against it makes that sum smaller; the vector of a word that occurs in no sentence is not given any gradient.", "quantifier": "all networks, vocabularies, batches of non-empty sentences with labels in range, parameters at which no ReLU is evaluated at 0, schedules of Backward", "why_tests_cant": "This is the program the library is for; an occurrence of a word that loses its gradient, or a gradient that leaks into the vectors of other words, gives a model that trains worse without any error. Sparse updates of embeddings rely on the last part.", "anchors": ["nn/embedding/model.go:70-92", "nn/embedding/embedding.go:13-78", "nn/crf/crf.go:43-104", "losses/losses.go:39-146", "ag/backward.go:33-110"]}
{"id": "C84", "title": "Softmax of float32 is accurate from the instructions to the real numbers", "statement": "On amd64, Dense[float32].Softmax of a vector with data x returns, for every element, a finite float32 that is not negative and differs from e^{x_i}/sum_j e^{x_j} (computed with real numbers from the values of the elements) by at most the fraction 2^-16 + n/2^23 of it plus 2^-124; an element that is minus infinity (a causal mask) gets exactly 0; the outputs add up to 1 within the same bound; no other memory is changed. No input magnitude makes it overflow. If all elements are minus infinity the result is no distribution: zeros only when the length is a multiple of the width of the vector exponential, NaN only otherwise.", "quantifier": "for all vectors of up to 2^20 elements that are finite or minus infinity (at least one finite), all processors (AVX, AVX2, FMA flags), all register contents, and any math.Exp within 2^-21 relative error", "why_tests_cant": "Softmax is the output of every classifier and of every attention head; subtracting the maximum, the vector exponential, the vector sum and the reciprocal each round, and a mistake in one of them makes probabilities negative, NaN or not summing to one.", "anchors": ["mat/dense.go:1080-1112", "mat/dense.go:1017-1044", "mat/dense.go:519-531", "mat/dense.go:606-618", "mat/internal/matfuncs/exp_amd64.go:9-45", "mat/internal/matfuncs/exp_amd64.s:45-209"]}
{"id": "C85", "title": "The loss of a conditional random field on float32", "statement": "On float32 (amd64), NegativeLogLoss of emission scores and transition scores that are finite returns a finite float32 close to the negative logarithm of the probability of the target, e^score(target) divided by the sum of e^score over all sequences of labels, whatever the length of the sentence.", "quantifier": "for all numbers of labels up to 2^10, all sentences, all finite scores, all processors (AVX flags), all register contents, any math.Exp and math.Log that are right up to 2^-23", "why_tests_cant": "The loss of a tagger is computed in the logarithmic domain to survive long sentences; an implementation that takes the exponential of whole sentence scores works on the short sentences of the tests and returns infinity on long ones.", "anchors": ["nn/crf/crf.go:43-104", "mat/internal/matfuncs/sum_amd64.s"]}
{"id": "C86", "title": "Attention to the past: training and causality", "statement": "Self-attention with UseCausalMask gives position t the average of the values at the positions u \u2264 t, weighted by the softmax over those positions of the scaled products of keys and query; Backward through it adds the partial derivatives, later positions getting none. In a network of layers that look back only (causal attention, recurrent layers, layers that treat every vector alike, stacked and with residual connections) the first m outputs depend on the first m inputs only, however many inputs follow.", "quantifier": "every network of layers, every sequence length, all parameters and inputs of the right dimensions, every position", "why_tests_cant": "A mask that is off by one, missing for some length, or added after the softmax lets a language model see the word it should predict; training then looks successful and only generation fails.", "anchors": ["nn/attention/attention.go:18-60", "nn/attention/selfattention/model.go:76-101", "nn/normalization/scalenorm/scalenorm.go:36-44", "nn/normalization/fixnorm/fixnorm.go", "nn/normalization/layernormsimple/layernormsimple.go", "nn/sqrdist/sqrdist.go"]}
{"id": "C87", "title": "Cross entropy of float32 scores on amd64", "statement": "losses.CrossEntropy(x, c) on float32, computed with the assembly routines of amd64, does not overflow: for scores that are finite (up to 2^126) or minus infinity and a class with a finite score the loss is a finite number, never negative, and close to the negative logarithm of the softmax probability of the class, with an error of 2^-15 plus the number of classes over 2^23 plus the size of the scores over 2^22. A class whose score is minus infinity has infinite loss. The result depends on the scores only, not on the registers or the rest of the memory, and the scores are not changed.", "quantifier": "every vector of up to 2^20 float32 scores, every class, every amd64 processor (AVX2, SSE), every content of registers and memory", "why_tests_cant": "Subtracting the maximum, the order of the additions, the vector tail and the polynomial of the exponential all contribute to the error; a loss that is slightly negative or infinite shows only for scores tests do not use.", "anchors": ["losses/losses.go:39-41", "ag/operators.go:510-516", "mat/gradfn/reducemax.go:33-37", "mat/dense.go:1061-1078", "mat/internal/asm/f32"]}
{"id": "C88", "title": "A float32 network computes what the network of real numbers computes, up to a stated error", "statement": "For every feed-forward network of linear layers (nn/linear) and element-wise activations with finite weights up to 2^50 in absolute value and up to 2^20 inputs per layer, every amd64 processor and every input for which the computed bounds stay in the range of float32: the forward pass ends without overflow, every output is finite, and it differs from the output of the network of real numbers by at most the bound that follows, layer by layer, from the norms of the weights, the widths and the accuracy of the activations (ReLU is exact). A class whose exact score exceeds the others by more than twice that bound is the one ArgMax returns, and the float32 cross entropy is within the stated bound of the exact one.", "quantifier": "all networks, weights, inputs, processors, placements in memory and register contents within the stated ranges", "why_tests_cant": "Users rely on a float32 network giving the prediction that the trained weights stand for; overflow in a dot product, a wrong row stride or a bias added twice would silently change it.", "anchors": ["nn/linear/linear.go:43-49", "mat/gradfn/affine.go:70-79", "mat/dense.go:681-720", "mat/dense.go:432-449", "mat/dense.go:1312-1336", "mat/gradfn/misc.go:293-295", "nn/model.go:112-117"]}
{"id": "C89", "title": "The logistic function of float32 on amd64, and networks with it", "statement": "Dense[float32].Sigmoid, computed with the assembly routines of amd64 (multiplication by -1, exponential, then 1/(1+v)), gives for every finite number, however large or small, a finite number from 0 to 1 that is within 2^-20 of 1/(1+exp(-x)); the intermediate exponential may be infinite or clamped and still the result is right. With it, and with a hyperbolic tangent of the library that is off by at most 2^-23, feed-forward networks of linear layers with ReLU, Sigmoid and Tanh compute in float32 what the network of real numbers computes, up to the bound of C88.", "quantifier": "every list of finite float32 numbers, of any length, every amd64 processor (AVX2, SSE), every placement in memory, every content of the registers", "why_tests_cant": "The exponential overflows for large negative inputs and the vector routine clamps its argument; whether 1/(1+v) is then still right is decided for inputs tests rarely use.", "anchors": ["mat/dense.go:989-1010", "mat/dense.go:591-602", "mat/internal/matfuncs/exp_amd64.go:9-45", "mat/gradfn/sigmoid.go:32-35", "mat/gradfn/misc.go:251-253", "nn/activation/types.go:16-43"]}
{"id": "C90", "title": "Recurrent networks of float32 on sequences of any length", "statement": "The simple recurrent network, the GRU and the LSTM (without refined gates) of float32 on amd64, with weights whose sums stay in the range of float32 and a library whose exponential and hyperbolic tangent are accurate, never panic and never produce an infinity or a NaN, however long the sequence: outputs stay from -1 to 1, and the cell of an LSTM never exceeds 2^25, because at that size the addition of a number up to 1 is rounded away. After every input the output (and the cell) is within an explicit bound of that of the network of real numbers, which starts from a zero state; for a simple recurrent network whose recurrent weights contract, the bound does not depend on the length of the sequence.", "quantifier": "every network whose gates fit, every sequence of finite inputs up to the given size, every length, every amd64 processor, every placement in memory", "why_tests_cant": "Overflow of a cell and the growth of rounding errors show only on long sequences; no test runs millions of steps, and none compares with exact arithmetic.", "anchors": ["nn/recurrent/srn/srn.go:44-67", "nn/recurrent/gru/gru.go:61-103", "nn/recurrent/lstm/lstm.go:111-158", "mat/gradfn/affine.go:41-79", "mat/gradfn/reversesubscalar.go:33-37", "mat/dense.go:413-429", "mat/dense.go:467-479", "mat/dense.go:549-571"]}
{"id": "C91", "title": "Attention of float32 against attention of real numbers", "statement": "ScaledDotProductAttention of float32 on amd64, for keys, values and queries of finite numbers whose scores stay in the range of float32 and a library whose exponential is accurate, never panics; each query gets as many weights as there are positions, finite and not negative, exactly 0 at the positions its causal mask hides (those after its own index, and only if there is more than one query), and together within an explicit bound of the softmax of the exact scores; and its result is finite and within an explicit bound of the exact weighted sum of the values.", "quantifier": "every number of positions up to 2^20, every size of keys, queries and values, any number of queries, with and without mask, every amd64 processor, every placement in memory", "why_tests_cant": "The mask is made of infinities, which a wrong order of operations turns into NaN; a masked position whose weight is not exactly 0 leaks the future. Tests compare a few small cases with a tolerance.", "anchors": ["nn/attention/attention.go:18-58", "mat/dense.go:681-719", "mat/dense.go:757-783", "mat/dense.go:591-602", "mat/dense.go:1080-1112", "mat/gradfn/prodscalar.go:33-35", "mat/internal/f32/asm32/axpyunitaryto_amd64.s"]}
{"id": "C92", "title": "Attention heads of float32 and their cache", "statement": "An attention head of float32 on amd64 (query, key and value layers, scaled dot-product attention) and several heads with their merging layer, called any number of times with the cache of the call before, for layers and inputs in range and up to N vectors kept: no call panics; after every call the cache holds, row for row, the keys and values of all vectors so far (those of the first call, for cross-attention) up to the error of a linear layer; every result is finite and within an explicit bound of the exact one over all those vectors. So with a causal mask, decoding one vector at a time with the cache and one call with all vectors give results that differ by at most twice the bound.", "quantifier": "every number of calls, heads and vectors, every shape, every amd64 processor, every placement in memory", "why_tests_cant": "The cache is what makes decoding affordable, and a slip in its order or in the mask shows only as slightly wrong numbers; rounding makes bit-for-bit comparison of the two ways impossible, so a bound is needed.", "anchors": ["nn/attention/selfattention/model.go:24-29", "nn/attention/selfattention/model.go:75-101", "nn/attention/multiheadattention/model.go:69-109", "nn/attention/attention.go:18-58", "nn/linear/linear.go:43-49", "mat/dense.go:1263-1283", "mat/matrix.go:282-325"]}
{"id": "C93", "title": "Adam on float32 for any number of steps", "statement": "Adam and AdamW of float32 on amd64, with settings as in the defaults and gradients up to 2^60: for any number of steps the optimizer runs to its end, parameters and moments are never Inf or NaN, the moments stay within a fixed distance of the exact exponentially weighted averages of the gradients and their squares however many steps are done, every step is the rule alpha*(v/(sqrt m + eps) + lambda*w) but for rounding, no gradient moves an element by more than K*alpha with K a constant of the settings (8 for the defaults), and parameters stay below a fixed bound. Beyond that range it fails in one particular way: a single finite gradient above 2^64 makes the second moment +Inf, and no later step ever changes that element.", "quantifier": "every number of steps, every length, every gradient in range, every amd64 processor, every placement in memory", "why_tests_cant": "Training runs for millions of steps; a slow drift of the moments by rounding, an overflow or a bias in the in-place operations appears only after many steps, and the freezing after one large gradient raises no error at all.", "anchors": ["optimizers/adam/adam.go:90-185", "mat/dense.go:467-479", "mat/dense.go:501-516", "mat/dense.go:549-571", "mat/dense.go:591-656", "mat/dense.go:932-946", "mat/mathfunctions.go:66-69"]}
{"id": "C94", "title": "Normalisation layers on float32", "statement": "LayerNorm, LayerNormSimple, RMSNorm, FixNorm and ScaleNorm of float32 on amd64, for vectors of up to 2^20 numbers, each up to 2^48 (2^50 without the mean): they run to their end, no element of the result is Inf or NaN, an element is at most sqrt(n)*|w|+|b| (|w| for FixNorm and ScaleNorm) but for rounding, and its distance to the exact normalisation is at most a few units of n*2^-23 relative to that bound. For the two layers that subtract the mean there is one more term, the rounding of the mean divided by the denominator, which is not small when the spread of the vector is small compared to its size: seven equal numbers do not give the bias but up to one unit of weight away from it. Beyond the range they fail in one particular way: one element above 2^64 (for LayerNorm: two elements 2^66 apart) makes the whole result the bias.", "quantifier": "every vector of up to 2^20 float32 in range, every weight and bias, every amd64 processor, every placement in memory", "why_tests_cant": "The order of the sums depends on processor, length and alignment; the constant vector and the overflow of the squares are silent, and random tests do not produce them.", "anchors": ["nn/normalization/layernorm/layernorm.go:45-57", "nn/normalization/layernormsimple/layernormsimple.go:36-46", "nn/normalization/rmsnorm/rmsnorm.go:42-53", "nn/normalization/fixnorm/fixnorm.go:36-47", "nn/normalization/scalenorm/scalenorm.go:36-44", "mat/gradfn/reducemean.go:31-34", "mat/gradfn/divscalar.go:31-33", "mat/dense.go:1013-1026"]}
{"id": "C95", "title": "SGD, AdaGrad and RMSProp on float32 for any number of steps", "statement": "SGD (plain, with momentum, with Nesterov momentum), AdaGrad and RMSProp of float32 on amd64: for any number of steps with settings and gradients in range the optimizer runs to its end and nothing is Inf or NaN. SGD: the velocity stays within a fixed distance of the exact one, the distance of the parameter from that of exact SGD grows by at most a fixed amount per step, and the parameter stays below 2^P. AdaGrad: the sum of squares is the exact one but for one relative rounding per step and never exceeds 2^25 times the square of the largest gradient. RMSProp: the average of squares stays within a fixed distance of the exact one. Every step of both is the rule lr*g/(sqrt m + eps) but for rounding, and moves no element by more than the rate (times K=1/sqrt(1-decay) for RMSProp). Where they fail: steps of SGD below an eighth of the spacing of the numbers never add up, however many; the sum of AdaGrad stands still while the exact sum grows without bound; one gradient above 2^64 ends the training of its element under AdaGrad and RMSProp.", "quantifier": "every number of steps, every length, every gradient in range, every amd64 processor, every placement in memory", "why_tests_cant": "Drift and stagnation appear only after millions of steps and raise no error; a test compares a few steps with a tolerance.", "anchors": ["optimizers/sgd/sgd.go:56-126", "optimizers/adagrad/adagrad.go:62-89", "optimizers/rmsprop/rmsprop.go:65-97", "mat/dense.go:467-479", "mat/dense.go:549-571", "mat/dense.go:591-656", "mat/mathfunctions.go:66-69"]}
{"id": "C96", "title": "The backward pass of a float32 network computes the derivatives of the loss, up to a stated error", "statement": "For every feed-forward network of linear layers and element-wise activations with finite parameters, every input and every loss within the stated ranges, on every amd64 processor: the forward pass and the backward pass end, every gradient is finite, and the gradient of every input, weight and bias differs from the derivative of the loss of the network of real numbers with respect to it by at most a bound that follows, layer by layer, from the norms of the weights, the widths and the accuracy of the activations and their slopes. ReLU, Sigmoid and Tanh and the gradient of the squared error meet the conditions; for ReLU the exact pre-activation must be further from 0 than the error of the computed one.", "quantifier": "all networks of any depth and width up to 2^20, all inputs, targets, losses, processors, placements in memory and register contents within the stated ranges", "why_tests_cant": "A gradient that is slightly wrong (a missing transpose for square layers, a slope taken at the output, a skipped row, a sum that overflows) still trains, only worse; a numerical gradient check of a few weights has a tolerance that hides it.", "anchors": ["mat/gradfn/affine.go:83-133", "mat/dense.go:682-783", "mat/internal/f32/gonum.go:11-21", "mat/gradfn/unaryelementwise.go:31-41", "mat/gradfn/sigmoid.go:37-50", "mat/gradfn/misc.go:255-257", "mat/gradfn/misc.go:297-302", "mat/dense_grad.go:21-29", "losses/losses.go:21-28"]}
{"id": "C97", "title": "The gradient of the cross entropy of float32 scores is the softmax less the class, up to a stated error", "statement": "For every vector of up to 2^20 finite float32 scores and every class in range, on every amd64 processor: the backward pass of losses.CrossEntropy ends, and whatever the order in which the three contributions to the gradient of the scores arrive, it ends with finite numbers; each is within (exp(2E) - 1) + 2^-14 + n / 2^21 of the probability that the softmax of the exact scores gives to it, less 1 for the class, when the scores are within E of the exact ones. That is the derivative of the cross entropy. With C96, the gradients of the weights of a network trained on the cross entropy are the derivatives of that loss, up to the error that grows backwards through the layers.", "quantifier": "all score vectors, classes, orders of accumulation, processors, register contents; all networks of C96", "why_tests_cant": "This is the gradient every classifier is trained with. The maximum is subtracted for safety and so gets a gradient of its own, which ought to be 0 and is only small; the exponentials are computed twice; a lost contribution or a wrong sign would still train, only worse.", "anchors": ["losses/losses.go:39-41", "ag/operators.go:510-516", "mat/gradfn/log.go:35-56", "mat/gradfn/exp.go:35-46", "mat/gradfn/subscalar.go:37-51", "mat/gradfn/reducemax.go:39-51", "mat/gradfn/at.go:35-43", "mat/gradfn/reducesum.go:35-46", "mat/dense_grad.go:21-29"]}
{"id": "C98", "title": "One training step of a feed-forward network in float32 is close to a step of gradient descent", "statement": "For every feed-forward network of linear layers and element-wise activations in float32, every mini-batch of up to 2^20 examples and every learning rate, as long as all magnitudes stay away from overflow: running the forward and backward passes of all examples (whose gradients are accumulated on the shared parameters by AccGrad in any order, as ag.Backward runs them concurrently) and then Optimize with plain SGD never panics; every new weight and bias is finite and differs from w - lr * (derivative of the summed loss of the batch with respect to that parameter) by at most an explicit bound that grows with the batch size, the rate, and the error of the backward pass. Shapes, activations and the number of layers do not change, and a step without examples changes nothing.", "quantifier": "all networks, batches, parameters, rates, orders of accumulation, amd64 processors", "why_tests_cant": "This is what the library is for: training must follow the gradient of the loss, and a lost or doubly counted contribution to a gradient, a wrong sign or a stale parameter would silently ruin it.", "anchors": ["mat/dense_grad.go:21-29", "ag/backward.go:23-52", "optimizers/optimizer.go:60-63", "optimizers/sgd/sgd.go:111-126"]}
{"id": "C99", "title": "Selection among float32 values with infinities and NaN", "statement": "Max, Min and ArgMax of Dense[float32] return a largest number, a smallest number and the first index of a largest number among the elements that are not NaN, infinities and zeros of both signs included, and do not depend on where a NaN stands; Maximum and Minimum treat their two operands alike; ClipInPlace moves every number to the nearest one between the bounds and leaves NaN as it is.", "quantifier": "every non-empty list of 32-bit words, including NaN of every payload and both infinities", "why_tests_cant": "The comparisons of Go are false for NaN, so the results depend on the position of a NaN in the data; tests use ordinary numbers.", "anchors": ["mat/dense.go:822-842", "mat/dense.go:845-896", "mat/dense.go:1029-1078"]}
{"id": "C100", "title": "The gradients of a simple recurrent network in float32 are the derivatives of its loss, through all time steps", "statement": "For every simple recurrent network of float32 (nn/recurrent/srn), every sequence of up to 2^20 inputs and every choice of losses on its outputs, the last one included, as long as all magnitudes stay away from overflow: the backward pass through time ends without a panic on every amd64 processor and in every order in which concurrent contributions arrive; the accumulated gradients of W, of B and of WRec and the gradient of every input are finite, and each element differs from the derivative of the sum of the losses with respect to that element by at most an explicit bound, which follows the recurrence of the backward pass. With one step the recurrent weights get no gradient and their derivative is 0; from two steps on they have one.", "quantifier": "all parameters, sequences, losses, sets of outputs with a loss, orders of accumulation, processors", "why_tests_cant": "Every time step uses the same parameters, so the derivative is a sum over all steps and over all paths between them; a step left out, or a gradient that is not handed on to the step before, still trains the network a little and no test of a single operator shows it.", "anchors": ["nn/recurrent/srn/srn.go:44-67", "mat/gradfn/affine.go:83-131", "mat/gradfn/unaryelementwise.go:31-41", "mat/gradfn/misc.go:255-257", "mat/dense_grad.go:21-29", "ag/backward.go:23-52"]}
{"id": "C101", "title": "One training step of a simple recurrent network in float32 is close to a step of gradient descent", "statement": "For every simple recurrent network of float32, every mini-batch of sequences with up to 2^20 steps together, every choice of losses on the outputs (the last of each sequence included) and every learning rate, as long as all magnitudes stay away from overflow: the passes of all sequences, whose contributions are accumulated on the shared W, WRec and B in any order, and then Optimize with plain SGD never panic; the shapes stay; and every new parameter is finite and differs from w - lr * (derivative of the summed loss of all sequences with respect to that parameter) by at most an explicit bound.", "quantifier": "all parameters, batches of sequences of different lengths, losses, rates, orders of accumulation, processors", "why_tests_cant": "The same three parameters receive a contribution from every step of every sequence, concurrently; only the sum over all of them is a step of gradient descent, and a contribution lost or counted twice changes no shape and raises no error.", "anchors": ["nn/recurrent/srn/srn.go:44-67", "mat/gradfn/affine.go:83-131", "mat/dense_grad.go:21-29", "optimizers/optimizer.go:60-63", "optimizers/sgd/sgd.go:111-126"]}
{"id": "C102", "title": "The gradients of an LSTM in float32 are the derivatives of its loss, through all time steps", "statement": "For every LSTM of float32 without refined gates (nn/recurrent/lstm), every sequence of up to 2^20 inputs and every choice of losses on its outputs, the last one included, as long as all magnitudes stay away from overflow: the backward pass through time, along the outputs and along the cells, ends without a panic on every amd64 processor and in every order in which concurrent contributions arrive; for each of the four gates the accumulated gradients of W, of B and of WRec, and the gradient of every input, are finite, and each element differs from the derivative of the sum of the losses with respect to that element by at most an explicit bound that follows the recurrence of the backward pass. With one step the forget gate and all recurrent weights get no gradient and their derivatives are 0; from two steps on all twelve parameters have one.", "quantifier": "all parameters, sequences, losses, sets of outputs with a loss, orders of accumulation, processors", "why_tests_cant": "The gradient of a step arrives along two roads, the outputs with their four gates and the cells with the forget gate; a road left out, two factors of a product exchanged, or the forget gate trained at the first step still gives gradients of the right shapes that make the loss smaller for a while.", "anchors": ["nn/recurrent/lstm/lstm.go:111-158", "mat/gradfn/affine.go:83-131", "mat/gradfn/prod.go:38-53", "mat/gradfn/add.go:41-57", "mat/gradfn/unaryelementwise.go:31-41", "mat/dense_grad.go:21-29", "ag/backward.go:23-52"]}
{"id": "C103", "title": "One training step of an LSTM in float32 is close to a step of gradient descent", "statement": "For every LSTM of float32 without refined gates, every mini-batch of sequences with up to 2^20 steps together, every choice of losses on the outputs (the last of each sequence included) and every learning rate, as long as all magnitudes stay away from overflow: the passes of all sequences, whose contributions are accumulated on the twelve shared parameters in any order, and then Optimize with plain SGD never panic; the shapes stay; and every element of W, WRec and B of every gate is finite and differs from w - lr * (derivative of the summed loss of all sequences with respect to that element) by at most an explicit bound. A parameter without a gradient keeps its value, and its derivative is 0.", "quantifier": "all parameters, batches of sequences of different lengths, losses, rates, orders of accumulation, processors", "why_tests_cant": "Twelve parameters receive a contribution from every step of every sequence, concurrently, and the forget gate receives none from first steps; a parameter updated with the gradient of another gate has the same shape and raises no error.", "anchors": ["nn/recurrent/lstm/lstm.go:111-158", "mat/gradfn/affine.go:83-131", "mat/dense_grad.go:21-29", "optimizers/optimizer.go:60-63", "optimizers/sgd/sgd.go:111-126"]}
{"id": "C104", "title": "One training step of a tagger on 32-bit words: an LSTM with a feed-forward head", "statement": "One step of training of an LSTM whose outputs go one by one through a feed-forward network, with losses on some of the outputs of that network (forward, back-propagation through the head and through time, accumulation of the gradients of all positions and sequences in any order, Optimize with plain SGD): the step ends, all parameters stay finite and keep their shapes, and every parameter of every gate of the LSTM and every weight and bias of the head is, up to a stated rounding error, w - lr * d, where d is the derivative of the total loss of the mini-batch with respect to that parameter.", "quantifier": "For all sizes, sequences, mini-batches, heads of any depth, positions with and without a loss, parameters and learning rates within the stated bounds, and all orders of accumulation.", "why_tests_cant": "This is how the library's layers are combined in practice (sequence labelling); the head's parameters are shared by all positions and the LSTM's outputs that it sees are already rounded, so the errors of the two parts must compose.", "anchors": ["nn/recurrent/lstm/lstm.go:111-158", "nn/linear/linear.go:44-50", "ag/backward.go:23-52", "mat/dense_grad.go:21-29", "optimizers/sgd/sgd.go:111-126"]}
{"id": "C105", "title": "Norm clipping with the maximum norm on 32-bit words", "statement": "NormClipper.ClipGradients with NormType +Inf on float32 gradients multiplies all gradients by MaxNorm / (largest absolute value + 1e-7) when that is below 1 and leaves them as they are otherwise: afterwards every element is finite, not larger than before, at most MaxNorm up to rounding, and close to the scaled element; gradients that are already small are unchanged word for word; also when some gradients are infinite or NaN no element of the clipped gradients exceeds MaxNorm and finite elements keep their direction.", "quantifier": "For all numbers and sizes of gradients and all float32 words in them, infinities and NaN included, and all positive MaxNorm.", "why_tests_cant": "Overflowing gradients are what clipping is used against, but they are rare in tests; what happens with infinities and NaN depends on the place of a NaN and on products of zero and infinity.", "anchors": ["optimizers/gradclipper/clipper.go:50-77", "mat/dense.go:606-618", "mat/dense.go:899-912", "mat/dense.go:1033-1044"]}
{"id": "C106", "title": "Norm clipping with the Euclidean norm on 32-bit words", "statement": "NormClipper.ClipGradients with NormType 2 (the documented default) on float32 gradients: if the Euclidean norm N of all gradients together is above MaxNorm every element becomes, up to a stated rounding error, the element times MaxNorm / (N + 1e-7), and the norm of the result is at most MaxNorm up to rounding; if N is below MaxNorm the gradients are unchanged word for word; no element gets larger; in particular finite gradients of any size keep their direction.", "quantifier": "For all numbers and sizes of gradients up to 2^20, all finite float32 words in them, all positive MaxNorm, and all processor variants of the sum kernel.", "why_tests_cant": "The squares and their sum are computed in float32, so the exponent range is halved; tests use gradients of ordinary size and never see the overflow that clipping is meant to tame.", "anchors": ["optimizers/gradclipper/clipper.go:50-77", "mat/dense.go:606-618", "mat/dense.go:899-929"]}
{"id": "C107", "title": "With clipping, steps of SGD on 32-bit words stay bounded whatever the gradients", "statement": "Any number of training steps in which the gradients are clipped by NormClipper with NormType +Inf and then applied by plain SGD, on float32 words: whatever finite gradients the steps have, even next to the largest float32, all parameters stay finite, keep their shapes, and after t steps no parameter has moved by more than t times learning rate times MaxNorm, up to a stated rounding error per step.", "quantifier": "For all numbers and shapes of parameters, all finite gradients, all numbers of steps, all positive MaxNorm up to 2^60, learning rates from 0 to 1, and parameters that the bound keeps below 2^100.", "why_tests_cant": "This is what clipping is for: one exploding batch must not destroy the parameters. A test sees one sequence of gradients.", "anchors": ["optimizers/gradclipper/clipper.go:50-77", "optimizers/sgd/sgd.go:79-126", "optimizers/optimizer.go:60-63"]}
