# Formal model of spago in Lean 4

Source of truth: `/repo` (nlpodyssey/spago, pinned commit), read as text. The model
lives in `lean/Verif`; `lake build` in `lean/` checks everything.

## Layout

* `Verif/Model/*`: executable definitions, each citing the Go file and lines it follows
  and naming its simplifications.
* `Verif/Lemmas/*`: helper lemmas, never part of a claim.
* `Verif/Spec/*`: small, model-independent specifications used in theorem statements.
* `Verif/Props/*`: the property theorems with examples next to them.

## Conventions

* A Go panic or `log.Fatal` is `none` (or an explicit `panicked` flag in a state machine);
  Go `error` results are explicit values.
* Goroutines, channels, `sync.WaitGroup`, atomics: an explicit small-step machine in which
  any enabled goroutine may move. Every atomic access is its own step.
* Slices are lists; where sharing of backing arrays matters (shape sharing, multi-head
  attention, gradient accumulation) there is a heap of addressed cells.
* Floating point is not modelled. Structural results hold for any element type; algebraic
  results for any commutative (semi)ring or ordered field; analytic results over the reals.
  Consequently rounding, overflow, NaN and infinities (other than the explicit -inf of the
  Viterbi tables and of the causal mask) are outside the model.
* Go `int` is modelled by `Nat`/`Int`, without overflow. Generator arithmetic is modelled
  with 64-bit wrap-around.

## Trusted base

Lean's kernel, the axioms `propext`, `Classical.choice`, `Quot.sound` (nothing else; the
gate re-checks it), and the reading of the Go code that the comments in `Verif/Model`
document. The flatbuffers library, `encoding/gob`, `reflect`, the Go scheduler and memory
model (assumed sequentially consistent for the atomics and channels used) are not modelled.
Of the assembly, the 28 routines of add, sub, div, addconst, mulconst, dotprod and sum in
mat/internal/matfuncs are modelled line by line (`Model/Asm.lean` is the machine, to be read
against the processor manual; `Model/AsmCode.lean` is the text); exp and log are modelled per
lane (`Model/ExpLog.lean`).  Of asm32 and asm64 the routines the matrices use — AxpyUnitary,
AxpyUnitaryTo, CumSum, GemvN — are modelled line by line too (`Model/Gonum.lean` is the machine,
`Model/GonumCode.lean` the text); the other routines there have no caller outside their tests.

## Plan per property

| id | what is modelled | how proved |
|----|------------------|------------|
| C01 | `Backward` as one small-step machine: prepare, assign, process by the caller, one goroutine per operator, every gradient addition and every counter decrement a separate step | counting invariant by induction over steps; decreasing measure; progress lemma |
| C02 | same machine, gradients in any commutative monoid | invariant "present + still to come = chain-rule sum"; uniqueness of the chain-rule solution on acyclic graphs |
| C03 | same machine with a history of invocations | invariant |
| C04 | same machine, composed calls | final state is clean; C01/C02 start from any clean state |
| C05 | same machine without the contract | if a contribution is missing the counter stays positive, so no run returns; concrete built-in operators |
| C06 | assign phase | case analysis of the sequential phases |
| C07 | StopGrad as a node kind | reachability in the graph; corollary of C02 |
| C08 | recursive `RequiresGrad` | induction on the acyclic graph |
| C09 | chain-rule sums over the reals | derivative of a straight-line program by induction, `HasDerivAt` |
| C10 | forward machine: caller, semaphore, goroutines, broadcast channels | invariant, progress, measure |
| C11 | heap of matrices with gradient pointers | invariant over operation histories |
| C12, C13 | index loops of `T` and `TransposeInPlace` | modular arithmetic, permutation cycles |
| C14-C16 | loops of the dense operations over lists | index arithmetic |
| C17 | the kernels of `Mul`, `MulT` | sums over lists |
| C18 | heap with shared shape cells | concrete violation, positive theorem for fresh-shape operations |
| C19, C20, C25 | real-valued vectors | real analysis on finite sums |
| C21 | scalar functions and derivative factors | Mathlib `HasDerivAt` |
| C22, C23 | forward/backward of the operators over a commutative ring | adjoint identities, shape lemmas, counterexamples |
| C24 | pooling loops | counterexamples and a partial theorem |
| C26 | `Optimize` machine | violating run; theorem for runs that take the error branch and for what does hold |
| C27-C29 | update recurrences over the reals | induction over histories |
| C30, C31 | model values as trees; embedding state machine | induction, invariants, counterexamples |
| C32, C33 | forward algorithm, Viterbi tables | induction over the sequence |
| C34-C36 | attention, multi-head buffer aliasing, BiRNN | finite sums; heap model; index arithmetic |
| C37-C39 | recurrences, normalisation, losses over the reals | real analysis |
| C40, C41 | generator algorithms over arbitrary streams; two-word arithmetic | permutation lemmas; modular arithmetic, Hull-Dobell argument for powers of two |
| C42 | serialised record and little-endian bytes | round trip |
| C43-C46 | convolution, dropout, initialisers, formatting | index arithmetic, counterexamples |
| C47-C57 | see the notes of the manifest and the head comments of the modules | |
| C58, C59 | an abstract amd64 with memory permissions and alignment faults, the routines as lists of lines | each routine equals (by `rfl`) an instance of a general form; loop invariants for the general forms |
| C60 | binary32 numbers as bit patterns, the eight or four lanes of each routine as straight-line programs over a parameter for the arithmetic | reflection into symbolic expressions; bit-level comparison lemmas; the scalar rest and the zero fix-up as loops; forward error analysis against the real exponential and logarithm |
| C61 | the rejection loop over sequences of real numbers in [0,1) | measure theory: volumes of accepting intervals, product measure of the first rejected draws |
| C62 | the two kinds of slices over two abstract float types | induction over the loops |
| C63 | bytes, a codec and failing system calls as parameters | induction over the refills of the buffer |
| C64 | the gonum amd64 routines line by line as lists of instructions for a small machine (registers, two or four lanes, byte-addressed cells, access rights, flags); loops of the callers as relations | big-step run relation, one lemma per loop; symbolic execution of straight-line vector code by reflection |
| C65 | `GemvN` line by line on the machine of C64; the routine regrouped by labels with an opaque strided part (definitional equality) | symbolic execution of each straight-line piece, one control lemma for the three row groups, induction on the row groups |
| C66 | the options of `NewDense` folded, every nn constructor with integer sizes | cases on the number of sizes; constructed model satisfies the shape predicate of the existing Forward theorem; invariants of the recurrences at zero weights |
| C67 | a program as a list of instructions; the operators with side conditions as an inductive predicate | cases over the operators; refinement of the run to an evaluated graph, then C48; a function with negative derivative decreases |
| C68 | `Forward` methods and losses as code that appends instructions (a writer monad); training as a predicate on program and error formula | simulation of the value models by the recorded programs, by induction over the sequence; then C37 and C67 |
| C69 | networks as terms, their `Forward` as recorded code and as functions | induction over networks of the simulation of C68, then C67 |
| C70 | loops over samples with any schedule; the epochs of examples/regression | induction over the samples with C68; powers of an integer matrix and linearity |
| C71 | CPUID bits, the option table and the parser of GODEBUG; routines of C58 on a processor that refuses unknown instructions | each option separately (names and fields are distinct), induction on the fields from the right; every path to RET passes HADDPS |
| C72 | `Model/DenseMisc.lean` | exact condition for the norm; induction over the loops of `DoNonZero` |
| C73 | `Model/Ziggurat.lean` | strips that cover a decreasing function; rational check of the tables; continued fraction for the tail; partial correctness of the loops; orbit of the generator |
| C74 | `Model/Dense.lean`, `Model/Spare.lean` | `Props/DenseReduce.lean`: induction over the elements; multiples of n+1 are the diagonal |
| C75 | `Model/TrainLoop.lean` | `Props/TrainLoop.lean`: the loop is a history of C27 without ticks; limits of geometric averages |
| C76 | `Model/Tape.lean` | `Props/TapeSeed.lean`: C48 with the seeded gradients as weights |
| C77 | `Model/Examples.lean` | `Props/Examples.lean`: instances of C70 and C76; induction over the loops |
| C78 | `Model/Optim.lean`, `Model/Batch.lean` | `Props/Descent.lean`: sign of the direction of each strategy; derivative along it by C70 |
| C79 | `Model/Asm.lean`, `Model/AsmCode.lean`, `Model/Dense.lean` with rounded arithmetic | `Props/Rounding.lean`, `Props/RoundingDense.lean`, `Props/RoundingF32.lean`: parametricity; exact run on triples beside the rounded one |
| C80 | Model/RecordLosses (LogSumExp, CrossEntropy, focal losses, MAE recorded) | simulation of the smooth twin, and transfer between programs alike at a point (Props/Twin, Props/NetworkLosses) |
| C81 | Model/Strided (the loops of the portable routines, words modulo 2^64) | induction over the rounds: a loop updates the places of its vector (Props/Strided, StridedT, StridedMisc) |
| C82 | Model/RecordCrf (crf.NegativeLogLoss recorded) | simulation against the recursion of total scores, which sums over all labelings (Props/NetworkCrf) |
| C83 | Model/RecordTagger (embeddings, a network, a loss, on batches of sentences) | the loop over samples with the training theorems of C80 and C82 (Props/Tagger); a parameter that feeds no operator keeps its gradient (Props/Unused) |
| C84 | Model/Softmax32 (calls of the vector routines on binary32 words) | error of every step composed (Lemmas/Softmax32, Props/Softmax32); counting run for overflow (Props/SumFinite); fully masked vector (Props/SoftmaxMasked) |
| C85 | Model/Crf32 (Model/Crf on binary32 words, last sum by the assembly) | error per position in the logarithmic domain (Props/Crf32); lower bounds that reach overflow (Props/Crf32Overflow); scalar functions exist (Props/Crf32Scalars) |
| C86 | causal attention and more layers as recorded code | masked softmax over reals with bottom; induction over networks for prefixes |
| C87 | Model/CrossEntropy32 (LogSumExp and CrossEntropy on binary32 words) | monotone rounding, sum of exponentials from 1 on, error of the logarithm |
| C88 | Model/Net32 (linear layers and activations on binary32 words, operations as relations between data, placement in memory left open) | a counting run shows that the dot product does not overflow (counts of elements and of products, not a ring); errors layer by layer; ArgMax; cross entropy is Lipschitz |
| C89 | Model/Sigmoid32 (`Sigmoid` as a relation between words), Model/Acts32 (ReLU, Sigmoid, Tanh as activations of Model/Net32) | the vector exponential is good below 88.376 and large or infinite above; the reciprocal of a number from 1 on is within 2^-23; Lipschitz constants by the mean value theorem |
| C90 | Model/Rec32 (`Next` of SRN, GRU and LSTM as relations between words; `Forward`) | words stay in the unit range because 1 and -1 are float32 numbers and rounding is monotone, the cell up to 2^25 because rounding absorbs a unit there; one step against the exact step, then induction with the Lipschitz constants of the exact step |
| C91 | Model/Att32 (`ScaledDotProductAttention` on words, with the amd64 kernels for products, scaling, softmax and `AxpyUnitaryTo`) | scores from the bound on dot products; adding the mask gives minus infinity or leaves the value; weights from C84 plus the sensitivity of the softmax to its scores; the weighted sum by induction over the rows |
| C92 | Model/Head32 (`Forward` of a head with cache, of several heads, and sequences of calls) | invariant: the cache holds a row near the exact key and value of each vector kept; exact attention moves little when keys, values and query do; positions hidden by the mask can be cut off |
| C93 | Model/Adam32 (`Step`, `Steps`, `Train` of Adam and AdamW on words; `sqrtIeee`) | one element at a time: bounds of the moments by contraction, ratio of the moments by Cauchy and Schwarz with rounding, parameters by saturation of the sum (or by the weight decay); induction over the steps |
| C94 | Model/Norm32 (`LayerNorm`, `LayerNormSimple`, `RMSNorm`, `FixNorm`, `ScaleNorm` on words; `Sum1`, `Mean`) | sums by a relation kept by every addition order (bounded, relative error, no less than each element, `+Inf` if one is); a quotient bounded by the denominator's lower bound through each element; perturbation of mean and root mean square |
| C95 | Model/Opt32 | Props/Opt32Sgd, Opt32Stall, Opt32Ada; every step is a function of each element (`Cellwise`), then induction over the steps; saturation of the sums by rounding (`add_sat`, `add_lost`) |
| C96 | Model/Back32 | Props/Back32, Back32Acts; induction over the layers: the words are close to the chain rule (`back_ok`), and the chain rule gives the derivative along every curve (`adj_grad`); one axpy, dot product or elementwise product at a time (Lemmas/Back32, Back32Step) |
| C97 | Model/CeGrad32 | Props/CeGrad32: the sum is close to the exact one and its reciprocal gives the softmax (`lse_ok`); what the maximum gets is 1 less the sum of the probabilities, so small (`top_small`); three terms in any order (`acc3_ok`). `GoodLoss` of C96 then gives networks (`backward_ce`) |
| C98 | Model/Train32, Spec/Train32 | Props/Train32: the backward pass of every example is that of C96 (`back_ok`); the sum of `n` contributions in any order is off by `n² X / 2^24` (`acc_ok`); the rate and the difference round twice (`cell_step`, `learn_ok`); the derivative of the loss of a batch is the sum of those of the examples (`batch_grad`). Props/Train32Loss: squared error and cross entropy. `ZeroGrad` at the end of the optimizer means that each step starts without gradients |
| C99 | Model/Select32, Spec/Select32 | Props/Select32: the comparison of Go is that of the extended reals unless a NaN is involved (`lt_number`); induction over the loops, with NaN skipped (`max_loop`, `min_loop`, `arg_loop`); negations for NaN |
| C100 | `Model/Srn32.lean`: back-propagation through time of srn on words | induction over the steps: words (`bptt_ok`) and derivatives (`loss_der`) separately, then sums of contributions in any order (`sum_ok`) |
| C101 | `Model/SrnTrain32.lean`: C100 for every sequence of a batch, `AccGrad`, plain SGD | contributions of all sequences in one list (`passes_ok`), then `learn_ok` of C98 for each parameter |
| C102 | `Model/Lstm32.lean`: back-propagation through time of lstm on words, along outputs and cells | as C100: words (`bptt_ok`, by `gate_back` and `cell_back`) and derivatives (`loss_der`) separately, then sums of contributions (`sum_ok`, `gather_items`) |
| C103 | `Model/LstmTrain32.lean`: C102 for every sequence of a batch, `AccGrad`, plain SGD | as C101: contributions of all sequences in one list (`passes_ok`), then `param_ok` for each of the twelve parameters |
| C104 | `Model/Tagger32.lean`: an LSTM with a feed-forward head on every output, C102 with `Back` of C96 as the loss, records of what the head saw, plain SGD for both | `head_good`: the head is a good loss of its inputs, so C103 applies (`headed_sound`); the records are examples of C98 whose inputs are off by the error of the LSTM (`seen`), so `train_all` applies; both losses are one function of all parameters (`batchT`) |
| C105 | `Model/Clip32.lean`: `ClipGradients` with `NormType` +Inf on words: the sign bit cleared, `Max` of C99, `math.Max` of Go, `MulConst32` in place; the float64 coefficient is a parameter (`GoodCoef`) | `total_finite` by induction over the gradients, then `cell` for one element; for infinities and NaN `total_inf` and `total_nan` |
| C106 | `Model/ClipTwo32.lean`: `ClipGradients` with `NormType` 2 on words: squares and `Sum32` per gradient in float32, then a float64 coefficient as parameter (`GoodRoot`) and `MulConst32` in place | `sums_close` (error of the sums, from `sumSq_ok` of C94), `sqrt_close`, `quot_close`, then `cell_two` for one element; `norm_bound` for the norm of the result; overflow by `sumSq_blow` of C94 |
| C107 | `Model/ClipStep32.lean`: steps of `ClipMax` (C105) followed by plain SGD (C95) for every parameter | `elem` for one element, `update_near` over the parameters, induction over the steps |

## Disagreements between the code and the properties

Each is proved as a theorem about the model; the claim is kept in `properties.jsonl` as the
programmer would want it.

* C05: `Backward` hangs when an operator sends its operand fewer contributions than it has
  occurrences; `ag.LogSumExp` with several arguments builds such a graph (`logSumExp_hangs`).
* C06: after the gradient-shape error a retry hangs unless the counters happen to be clean
  (`backward_retry_iff`).
* C11, C18: `Clone`, `ZerosLike`-style constructors share the shape slice with the receiver, so an
  in-place transposition (also the one hidden in `Softmax` of a row vector) changes the shape of
  other matrices (`clone_transpose`, `softmax_reshapes_receiver`, `accGrad_transpose`).
* C20: `SparseMax` clips at the largest input instead of 1: the output sums to less than 1
  (`sparseMax_wrong`) or the call panics (`sparseMax_panics`).
* C25: `ScalarMax` starts its maximum at 0 (`scalarMax_negative`).
* C34: with a non-empty cache and a chunk of more than one query, the causal mask ignores the length
  of the cache: query `i` of the chunk sees only the first `i + 1` keys of the whole sequence
  (`chunk_mask_wrong`). Token-by-token decoding is right (`decode_eq_forward_partial`).
* C21: the derivative of GELU uses constants rounded to six digits (`gelu_wrong`, error bound in
  `gelu_partial`, for the whole backward pass in `gelu_backward_partial`); SoftShrink with lambda 0 has derivative 0 at 0 although it is the identity
  (`softShrink_zero`); SwishB's backward pass panics on matrices that are not vectors
  (`swishB_panics`); the parameter operands of ELU, CELU, SELU, LeakyReLU, SoftPlus, SoftShrink and
  Threshold get no gradient (`leakyRelu_slope_wrong`).
* C22: RotateR by the full size is the identity forward and panics backward (`rotateR_full`).
* C23: the gradients of ReduceSum, ReduceMean, Concat and AppendRows are column vectors (rows for
  AppendRows) whatever the operand's shape (`reduceSum_correct_iff`, `concat_correct_iff`,
  `appendRows_correct_iff`); accumulating such a gradient on one of the right shape panics
  (`reduceSum_accumulate`).
* C24: MaxPooling starts each window's maximum at the smallest positive float and uses the number of rows
  for both loops (`maxPooling_small`, `maxPooling_small_grad`, `maxPooling_wide`, `maxPooling_narrow`).
* C47: Max and Min lose the whole gradient at ties (`max_self`, `min_self`), ScalarMax of negative values
  sends it to the first operand (`scalarMax_negative_grad`). SparseMax is cut off at the largest element
  (C52) where its threshold is negative, and the backward pass is that of the uncut function, so its gradient
  is wrong at every such vector (`sparseMax_negative_wrong`).

- C39: `Distance` only works for a 1x1 `x` (it subtracts matrices of equal dimensions); the sequence losses and `SPG` panic on empty sequences.
* C37: with refined gates the outputs are bounded by the inputs, not by 1 (`lstm_refined_bound`); C36: the goroutines of Model/BiRNNSched.lean take one step per input read, swap, result write and wg.Done; reading a shared node's value while it is being computed is the subject of C10, not of this machine.
* C38: BatchNorm divides the batch sums by `n + 1e-5` instead of `n`, so the batch mean of equal non-zero values is not that value (`bMean_biased`); its weights start at 1e-5 (batchnorm.go:38) where 1 is usual; ScaleNorm, LayerNormSimple and ForwardT panic without inputs.

- **C26** (optimizers/optimizer.go:71-77): nothing waits for the goroutines of the last parameters. `Optimize` can return success with updates outstanding and with an error lost; a goroutine which fails after `close(errCh)` sends on the closed channel and kills the process.
- **C27**: AdamW multiplies the weight decay by the bias corrections (adam.go:137-147); RAdam divides by the second moment even while the variance is intractable, so its first step has the size of the learning rate whatever the gradient (radam.go:97-132); LAMB applies the bias corrections to the step size after normalising, so the step length is not the learning rate times the norm (lamb.go:114-132).
- **C28** (gradclipper/clipper.go): a parameter without gradient makes both clippers panic (the nil `*Dense` is called through the interface); the limit is missed by 1e-7; parameters delivered twice are scaled twice. (`NormClipper`'s method is called `ClipGradients`, so it does not implement `GradClipper`.)
- **C29**: exponential decay divides by zero at `t = times + 1` (rate 0) and grows after it; hyperbolic decay stops only after the rate has fallen below `final`.

- **C40** (mat/rand/misc.go:50-77): the slice of results starts full of zeros and `contains` looks at all of it, so 0 is never selected; asking for all `n` numbers below `n` never returns (`unique_all_diverges`).
- **C49** (mat/rand/misc.go:45): falling through the loop returns 0, even where index 0 has weight 0.

- **C44** (mat/rand/bernulli/bernulli.go:22-27): with `float32` elements a number just below 1 is rounded to 1 before `math.Floor`, and the "Bernoulli" value is then 2 (`bernoulli_rounds`). Dropout asks for `float64` and is not affected.

- **C42** (mat/dense_marshaling.go): `UnmarshalBinary` leaves the gradient of the receiving matrix (`stale_gradient`); elements are written in little-endian order but read in the machine's order, so big-endian machines read other numbers (`big_endian_wrong`); nothing checks the shape read against the number of elements (`unchecked_shape`).
- **C46** (mat/dense_formatting.go:82, 131-133): the buffer of spaces is as long as the widest element, but the padding follows the width asked for, so `%10g` of 1.5 panics (`format_large`). The width is ignored for numbers without a decimal point.
- Convolution layers: when a mask leaves no input channel, `forward` applies the activation to nil and panics (`Conv.channel_spec`). With `DepthWise` the mask still decides which kernels require gradients, but `forward` does not look at it.
- C30: `walkSlice`, `walkMap` and `walkSyncMap` stop at the first element that is nil, foreign or itself a slice or map, so everything after it is not visited (`Traversal.seq_stops`); for maps the lost parameters depend on the iteration order (`map_order_matters`). `ForEachParamStrict` visits the parameters of nested models that have their own traversal (`strict_visits_nested`). `Apply` on such a model calls its `TraverseParams` with a nil function and panics if there is a parameter (`apply_panics`). After loading, an `embedding.Shared` has a nil model and `ForEachParam` panics on it (`shared_panics`). After its context is cancelled the channel of `Parameters` can deliver a later parameter having left out an earlier one (`parametersChan_skips`).
- C31: an optimizer step, and `nn.ZeroGrad` of an enclosing model, clear the weights' gradients but not the set of indices, so `CountEmbedWithGrad` and `TraverseParams` keep reporting them (`Embedding.clear_stale`). A loaded model has a nil map and every `AccGrad` panics (`reload_panics`). A gradient accumulated on `Weights[i]` directly is neither presented nor cleared (`direct_missed`). `TraverseParams` reads the map without the lock, so running it beside a backward pass is a data race (not modelled).
- C35: `project` (nn/attention/multiheadattention/model.go:95-109) appends each concatenation to a slice that
  shares its array with the operand slices. The first concatenation becomes its own first operand
  (`concat_self`), so `RequiresGrad` re-enters its own `sync.Once` and `Backward` hangs
  (`backward_never_returns`); the concatenations `i` with `0 < i` and `i * n < seqLen` get other concatenations
  as operands and their backward function panics (`concat_backward_panics`). Also `New(size, n)` accepts an `n` that does not
  divide `size`; every call of `Forward` then panics (`new_works_iff`).

* **LogSumExp on rows (C51).** `ag.LogSumExp` accepts a row vector, but the gradient of its reduction is a column of
  the same size and the sub-scalar operator below it refuses a gradient of another shape: the backward pass panics
  for every row of more than one element (`logSumExp_row_fails`).
* **Activations with negative parameters (C52).** The documented `max(0,x) + min(0, α(exp x − 1))` is not what `ELU`
  computes when α < 0 (`elu_negative`): the code branches on the sign of `x`.

* **MLP-Mixer length (C54).** `MixerBlock.Forward` checks `len(xs) > Channels` and reports a "maximum sequence length",
  but a shorter sequence panics in the token mixer, whose first matrix has `Channels` columns; so does an empty one
  (`mixer_length`).
* **Odd size of a spatial gating unit (C55).** `sgu.New` halves `Dim` downwards, `Forward` halves the size of the input
  downwards and takes the rest as gate: for odd sizes the gate is one element longer than the normalisation and every
  call panics (`sgu_odd`).
* **gMLP output length (C55).** For fewer than `SeqLen` inputs the gMLP returns `SeqLen` outputs, the padding positions
  included, and the padding takes part in the mixing (`gmlp_forward_partial`, `gmlp_padding`).
- **C56, Sentence-State LSTM.** `computeVg` (slstm.go:188) multiplies the sentence vector with `InputActivation.U` instead of
  `InputActivation.V`. `V` is therefore never read (`sentence_matrix_ignored`, `not_forward`), and every model with
  `InputSize ≠ OutputSize` panics in the first update (`sizes_differ`). `Steps = s` gives `s − 1` updates: with one step the
  inputs do not matter (`one_step`). No steps or an empty sequence panic (`empty_and_no_steps`). The code differs from the paper
  it cites in two ways that are not counted as violations: the gates of a cell are not normalised against each other, and the
  sentence cell `cg` is computed but never read (the sentence vector takes its place).
- **C57, LockedRand.** The methods call `Unlock` without `defer` (lockedrand.go:30-174). A call out of its range (`Intn(0)`,
  `Uint64n(0)`, `Perm(-1)`, `Shuffle(-1)`, a panic in `swap`) leaves the mutex locked: if the panic is recovered, every later call
  of every goroutine blocks (`panic_deadlock`, `intn_blocks`). As `ag.Rand()` is one global generator, dropout and random
  initialisation block as well. A `swap` passed to `Shuffle` that draws from the same generator blocks too (`nested_blocks`).

### C58: SSE3

`SumSSE32`, `SumSSE64`, `DotProdSSE32`, `DotProdSSE64` are documented as "SSE required" and are the
fallback of `Sum32` etc. without any feature test, but they contain HADDPS/HADDPD, which is SSE3. An
amd64 processor of 2003 without SSE3 stops with an illegal instruction (`reductions_need_sse3`).

The assembly routines do not check lengths where the portable functions panic
(`zip_no_bounds_check`); the callers in dense.go check the dimensions first.

### C59: shifted windows

`AddInPlace` with an operand that is the receiver's own memory shifted by one element: prefix sums in
the portable code, element-wise sums in the AVX code (`shifted_differs`). `WithBacking` makes such
matrices possible.
- **C71 (choice of the vector routines).**  `Sum` and `DotProd` fall back to routines with HADDPS/HADDPD, which need SSE3, without asking for it (dotprod_amd64.go:9-19, sum_amd64.go:9-19, dotprod_amd64.s:395, sum_amd64.s:265): on an amd64 processor with SSE2 only, no call returns.  `HasFMA` is set without looking at the operating system (cpu_x86.go:74); its one use is guarded by `HasAVX`.
- **C72 (norm).** `norm` (mat/dense.go:1291-1300) sums `math.Pow(x, p)` without absolute values: `Norm(1)` is the plain sum (`norm_one`), an odd p with a negative element gives a smaller number or NaN, and a power that is not an integer gives NaN with a negative element (`norm_right_iff`). `Normalize2` uses p = 2 and is right.
- **C73 (ranges of the samplers).** exp.go:22 documents (0, MaxFloat64] for `ExpFloat64`, but a word with upper half 0 gives 0 (`exp_zero`), and a fraction 0 in the tail gives `+Inf` (`exp_infinite`). normal.go:30 documents finite numbers for `NormFloat64`, but two fractions 0 in the tail give an infinite number (`norm_infinite`).
- **C15, C74 (slices with spare capacity).** `SplitV` and `Range` rely on Go's slice expression to reject an end beyond the vector. It is limited by the capacity, and `WithBacking(buf[:n])` keeps the caller's slice with its capacity. Then `Range(0, n+1)` and `SplitV(n+1)` return elements of `buf` outside the vector instead of panicking (`range_beyond`, `splitV_beyond`).
- **C75 (time steps of a training loop).** The interface `OptimizationStrategy` has only `OptimizeParams` (optimizer.go:15-18) and `Optimize` never calls `IncExample` or `IncBatch`; nothing else in the repository does, except `New` of Adam and LAMB once. A loop around `Optimize`, as in examples/sinusoid, therefore stays at time step 1: with the decays 0.9 and 0.999 Adam's second update is already more than 34 % too large (`adam_second_step`, `adam_loop_violated`), in the long run the updates are 0.316 times those of the published method (`adam_loop_limit`, `default_rate`), RAdam never applies its rectification (`radam_loop_partial`, `radam_becomes_tractable`) and LAMB keeps the first bias correction (`lamb_loop_partial`). SGD, AdaGrad and RMSProp are not affected (`clockless_loop`).
- **C77 (the example sinusoid).** `GenerateBatch` computes the targets with `math.Cos` (examples/sinusoid/main.go:80) although the example is about the sine, and the evaluation prints `sin(x) = … vs … (actual)` with `math.Cos(x)` (main.go:143-144): all five lines are wrong (`sinusoid_evaluation_violated`).
- **C81 (GemvT).** With `beta = 0` and an increment of 1 for `y`, `GemvT` clears all of `y`, also behind its `n` elements (asm64/ge_noasm.go:95-98, asm32/gemv.go:62-65); with another `beta` or increment it keeps them.  `gemvT_clears` proves it, `gemvT_correct_partial` the rest.  No code of the repository calls it.
- **C85 (CRF loss of long sentences).** `totalScoreStep` takes `exp` of the score of the whole sentence so far and then `log`, without subtracting a maximum (nn/crf/crf.go:91-104), and `totalScore` takes `exp` once more.  On float32 the score may not exceed about 88: from 180 positions on with emission scores of at least 1 the loss is +Inf or NaN, whatever the target (`loss_overflows`).
- **C93 (Adam after one large gradient).**  The second moment is the average of squares, so one float32 gradient above 2⁶⁴ makes it +Inf (optimizers/adam/adam.go:157-163). +Inf times Beta2 is +Inf, so it stays, the quotient is zero from then on, and the element is never changed again, without an error or a NaN that would show it (`adam_frozen`).  Gradients up to 2⁶⁰ are safe (`adam_close`).
- **C94 (layer normalisation of equal or large numbers).**  `ReduceMean` multiplies the sum with 1/n rounded to float32, so the mean of seven times 3 is 3 + 2⁻²² and all deviations are -2⁻²²; `LayerNormSimple` then returns seven times -0.99958 instead of 0 (`layerNormSimple_const`), and `LayerNorm` of seven times 12582912 returns -0.999995 times the weight (`layerNorm_const`).  The layers square without scaling, so one finite element above 2⁶⁴ makes the denominator +Inf and the whole result the bias (`rmsNorm_blank`, `fixNorm_blank`, `scaleNorm_blank`; `layerNorm_blank` and `layerNormSimple_blank` for two elements 2⁶⁶ apart).
- **C95 (SGD, AdaGrad and RMSProp).** Rounding makes training stop without any error: steps of SGD below an eighth of the spacing of the
  numbers around the parameter change nothing, however many there are (`sgd_stalls`); the sum of squares of AdaGrad never exceeds 2²⁵ times
  the square of the largest gradient, while the exact sum grows without bound (`ada_stalls`), so the rate stops falling; one gradient above
  2⁶⁴ makes the sum or average of squares +Inf, and no later step changes the element (`ada_frozen`, `rms_frozen`).
- **C99 (NaN in `Max`, `Min`, `ArgMax`, `Maximum`, `Minimum`).** `max := data[0]; if v > max` keeps a NaN that comes first and skips one that comes later, so `Max([NaN, 1])` is NaN, `Max([1, NaN])` is 1, and `ArgMax([NaN, 1, 2])` is 0. `Maximum` and `Minimum` return the element of the argument when either is a NaN, so they are not symmetric. Proved for every NaN and every number (`max_order_fails`, `argMax_nan_first`, `bigger_fails`); the rest of the claim is proved.
- **C105 (clipping infinite or NaN gradients)**: with `NormType` +Inf, one infinite element makes the coefficient 0: every finite element of every gradient becomes 0 and the infinite one `Inf * 0 = NaN` (`clip_inf`). A NaN as the first element of a gradient makes the norm NaN, `NaN < 1.0` is false, and nothing is clipped (`clip_nan_first`). An empty gradient panics in `Max` (`clip_empty`).
- **C106 (overflow in norm clipping)**: with `NormType` 2 the squares are float32. One finite gradient element above 2^64 gives an infinite norm, the coefficient is 0, and all gradients become 0 (`clip_overflow`) although they were finite and could be scaled.
- **C84 (Softmax of a fully masked vector).**  When all elements are minus infinity, the difference to the maximum is a NaN, of which the vector exponential makes 2.4e38 and `math.Exp` a NaN.  So the result is zeros only if the length is a multiple of 8 (AVX2) or 4 (SSE), and NaN only otherwise (`softmax_all_masked`): it depends on the length and on the processor.
- **C60 (exponential and logarithm of 32-bit vectors).**  `Log32` corrects the logarithm of zero after the vector routine only `if max > 0` and only in `x[:max+1]` with `max = len(x) - width` (log_amd64.go:23-29).  So a vector of exactly one block is never corrected and of a longer one the last `width - 1 - len % width` elements of the last block are not: there the logarithm of zero is NaN instead of minus infinity (`log32_zero_iff`: right for all zeros exactly when `len < width` or `len % width = width - 1`).  The vector routines clamp with MINPS/MAXPS, which return the constant when the input is a NaN: `Exp32(NaN)` is 2.4e38 and `Log32(NaN)` is -87.3 in the whole blocks, but NaN in the scalar rest (`nan_by_position`); `Exp32(+Inf)` is finite and `Log32(+Inf)` is 88.7 (`exp_lane_nan`, `log_lane_ieee`).

### C62: comparison of matrices

`Equals` converts the other slice to the type of the receiver (floatslice.go:83), so a 32-bit matrix is equal
to a 64-bit one that rounds to it, while the 64-bit one is not equal to it (`equal_not_symm`). `InDelta` tests
`math.Abs(v-w) > delta` (floatslice.go:107-111), which is false for NaN, so a matrix of NaN is within any delta of any
matrix of its shape (`inDelta_nan`); `AssertMatrixInDelta` and `RequireMatrixInDelta` therefore pass on NaN.

### C63: dump and load

`DumpToFile` and `LoadFromFile` have unnamed results; the deferred assignment to `err` when `Close` fails comes after
the result was fixed by `return` and is lost (`dumpToFile_close_lost`). `Load` wraps the reader into a new
`bufio.Reader`, which reads ahead; a second `Load` from the same reader finds the following object gone
(`second_load_lost`).

### C64: AXPY and cumulative sum kernels on amd64

- With a `y` (or `dst`) shorter than `x` the portable functions panic on the index; the assembly takes the
  minimum of the lengths and goes on silently (`axpyUnitary_short`, `cumSum_short`).
- `CumSum` on amd64 forms its sums in groups of four, so the fourth element is
  `(s2 + s3) + (0 + (s0 + s1))` and not `((s0 + s1) + s2) + s3` (`cumSum_order`); with rounding, or with an
  overflow on one of the two ways, the results differ (`cumSum_not_purego`).  The first element is `s0 + 0`, so
  that -0 becomes +0.  The doc comment (stubs_amd64.go:71-83) gives the sequential loop.
- `CumSum` on amd64 returns `dst[:min(len(dst), len(s))]`, the portable one `dst`; the callers ignore the result.

### C65: matrix-vector product on amd64

- `GemvN` in assembly returns at once when there are no columns (gemvN_amd64.s:238-239), so `y` is neither
  cleared nor scaled; the portable `GemvN` sets `y[i]` to `beta * y[i]` (`gemvN_noColumns`). `Mul` is not affected,
  since its result starts as zeros (`mulVec_kernel`).
- `COMISD` sets the zero flag for unordered operands too, so a NaN `beta` clears `y` instead of making it NaN
  (gemvN_amd64.s:267-268). `Mul` passes zero.
- The routine uses MOVDDUP and HADDPD (SSE3) without asking the processor; the Go baseline for amd64 is SSE2.
- The theorems need `y` apart from the matrix and from `x`; `Mul` allocates its result.

## Constructors (C66)

`Model/New.lean` models the functional options of `NewDense` and every `New` of the layers with integer sizes; `make`
with a negative length, `checkShape` and the size check are the sources of `none`. The theorems of `Props/New.lean` connect
the constructors with the shape hypotheses of C37, C38, C52–C56 and C16, so those theorems hold for constructed models, and
describe the untrained models. Worth knowing: normalisation weights start at 0, so a new LayerNorm erases its input; a new
BatchNorm is the identity at inference only because its weights start at 1e-5, the constant of the division; its first
training outputs are 1e-5 times the normalised values.

Disagreement with C66: `sgu.New` (and `gmlp.New`) accept odd sizes whose `Forward` always panics (`sgu_new_odd`).

## C67: programs

`Model/Tape.lean` is a user's program: a list of instructions (leaf, `StopGrad`, operator call on earlier tensors),
with `run` giving the values in order of creation and `graph` the graph `Backward` sees. `Spec/Tape.lean` lists the
operators with their side conditions (`Safe`), and says what the result is as a function of the trainable leaves
(`output`, which holds the results of `StopGrad` constant) and what a step of SGD is. `Props/Safe.lean` shows that
the operators of the list are right and serve their operands, `Props/Tape.lean` that programs of them can be
differentiated, with C48 as the main ingredient; `Props/TapeExample.lean` applies it to a network with a
hidden layer of any size.

## Models as programs (C68)

`Model/Record.lean` is a second model of the `Forward` methods, at the level where the code works: a method takes and
returns tensors (numbers), and each operator it calls appends an instruction to the program that `Model/Tape.lean`
runs and `Backward` traverses. `Spec/Record.lean` says what training means (`Trains`), with the error given as a formula.
`Props/Record.lean` relates recorded code to the value models by a simulation (`Sim`, with a rule for sequential
composition), and derives `Trains` from it; `Props/RecordNets.lean` has the simulations layer by layer.
The order of instructions is that of the statements; where the code evaluates several operators in one expression
the order does not matter for values and gradients.

## Networks of layers (C69)

`Model/Network.lean` records the `Forward` methods of more layers and defines networks as terms (`Net`); `Spec/Network.lean`
gives the function of a network on sequences of real vectors. `Props/Network.lean` proves by induction over the network that
the recorded program computes that function and that its results require gradients when the network has parameters or
its inputs require gradients (`net_sim`), and with C67 that the network is trained (`net_trains`).
Simplifications: the operators of the two directions of a bidirectional layer, and of the queries of attention, are
recorded one after the other (the code starts goroutines for the two directions, and loops three times over the queries);
the orders give the same graph up to numbering.

### Batches and the regression example (C70)

`Trains` (Spec/Record.lean) is stated for parameters that may hold gradients from before: what `Backward` adds is the
derivative. `Learn` (Model/Batch.lean) is the loop over samples, each with its own graph and any schedule; by induction the
gradients add up to those of the sum of the losses (`batch_gradient`), for every network of C69 and sequences of different
lengths (`net_batch_gradient`). For examples/regression the sum of the 1000 losses is a quadratic function of `W` and `B`,
so an epoch is one step of Nesterov's method, a linear map of four numbers (errors and velocities) with rational
coefficients. Its 32nd power has norm below 0.3 and its 100th power entries below 2e-4; both are computed exactly with
integers (checked by the kernel) and lifted to all starting points by linearity.
Assumptions: real arithmetic instead of float64; the goroutines of `Optimize` finish before the next epoch (C26 shows
that the code does not wait for them).

### Accuracy of the vector exponential and logarithm (C60, second part)

`Lemmas/F32.lean` gives a finite word its real value (`val`) and proves that the integer arithmetic of `ieee` is
correct rounding: sums and products are the exact real ones up to half a unit in the last place, and exact when the real
result has 24 bits.  `Lemmas/F32Int.lean` relates comparison, floor, truncation, conversion and the exponent bits to the
reals.  `Lemmas/F32Approx.lean` is a small calculus of forward error bounds.  `Props/ExpAccuracy.lean` follows the
instructions of `ExpAVX32`: the argument reduction is within 5.8e-8, the polynomial within 3.6e-8 of the exponential
(Taylor's theorem), the result within `2^-21` relatively.  For the logarithm the splitting into exponent and fraction is
exact; `Lemmas/LogPoly.lean` bounds the polynomial against `log (1 + t)` through the derivative of the difference, on 24
intervals, by expansion around the centres in rational arithmetic (checked in the kernel).  The saturation above 88.376
and the flush of denormals are proved as violations.
### Choice of the vector routines (C71)

`Model/CpuX86.lean` is the feature detection of the package `cpu` on amd64, function by function: `archInit` as a sequence of assignments to the fields of `X86`, `initOptions` as the table of names and fields, `processOptions` with its two loops, slices with their bounds checks (a panic is `none`).  The answers of CPUID and XGETBV are parameters; the other architectures' files are not modelled.  `Spec/CpuX86.lean` states, after the processor manual, when an instruction set may be used, what GODEBUG asks for (last field about a feature), and a run of a routine on a processor, which stops at an instruction the processor does not know (the instruction sets of the modelled instructions are `Asm.Cpu.can`).  That AVX2 implies AVX on every processor is a hypothesis (`Consistent`), because the code relies on it.  The theorems join with those of C58: `add_on_processor` and `dotProd_on_processor_partial` go from the start of the program to the result.

### C72: norms, visits, overwriting

`Model/DenseMisc.lean` has `norm`, `Norm`, `Normalize2`, `DoNonZero`, `Copy`, `SetData` and `Zeros` of
mat/dense.go.  The norm is over the reals; `math.Pow` of finite arguments is `goPow`, whose `none`
stands for NaN or an infinity.  `norm_right_iff` is exact: for p > 0, `Norm(p)` is the p-norm if and
only if no element is negative or p is an even number.  `DoNonZero` is modelled by the list of the
calls of its function with the running index `di` as in the code; `doNonZero_spec` characterises that
list by membership and order.

## C73: the ziggurat samplers

`Model/Ziggurat.lean` has the six tables of normal.go and exp.go as integers in a fixed unit, and the two functions over
an arbitrary source. The `float32` tables are parameters known only up to the relative error 2^-24 of the rounding of the
decimals, so that the theorems hold for whatever the compiler makes of the literals. `Lemmas/Ziggurat.lean` is the method
in general: strips of nearly equal area which nearly cover a decreasing function give a density near that function.
`Lemmas/ZigguratTab.lean` has a rational check of a table (with Taylor bounds of the exponential), its soundness proof,
and the check of both tables by evaluation in the kernel. `Props/Ziggurat.lean` is about runs: one round, the range of
results, when 0 or an infinite number is returned, termination with the library's generator. `Props/ZigguratDensity.lean`
is about the distribution: the probability that the point `x` of a strip is returned is defined with the predicates of
the model and Lebesgue measure for the fraction; the density of a round is the sum over the strips plus the tail. The
mass of the normal tail is bounded by two convergents of its continued fraction. Idealised: the position within a strip
is a uniform real number (in the code 2^25 or 2^24 equally spaced points, `strip_words`), and the comparison with the
density is in real instead of `float32` arithmetic.

## C74: reductions, ranges and special matrices

`Props/DenseReduce.lean` characterises `max`, `min`, `sum`, `cumSum`, `range`, `clip`, `identity`, `oneHot` and `equal` of
`Model/Dense.lean` over any linear order / additive monoid. `Model/Spare.lean` redoes `Range` and `SplitV` with the
elements between the length and the capacity of the backing slice, since Go's `s[a:b]` is limited by the capacity. Elsewhere
the model takes the capacity to be the length: the other slice expressions of dense.go are guarded by comparisons with the
shape, so that the capacity makes no difference there.

## C75: time steps of a training loop

`Model/TrainLoop.lean` is one parameter in a loop of `AccGrad` and `Optimize`; with several parameters the loops are
independent (C26, C27). `Props/TrainLoop.lean` reads the loop as one of the histories of C27 without ticks and derives the
trajectory. `adam_step_iff` is exact: update `k` is the published one iff it is zero or the bias corrections of time steps
1 and k+1 agree.


## C76, C77: several results, and the examples

`Props/TapeSeed.lean` lifts the chain rule with given gradients (C48) to programs: `weighted` is the sum of the products of
the results' elements and the gradients the caller has given them. `Model/Examples.lean` has the examples `addition`,
`perceptron` and `sinusoid`; `addition` is an instance of C76. The training of `sinusoid` is an instance of C70 (one sequence of
32 inputs per batch); the loop over the epochs is modelled around an arbitrary batch. Both generators of `sinusoid` get
seed 42, so weights and data are made of the same random numbers (`sinusoid_same_numbers`).

### C78: the strategies go downhill

`Props/Descent.lean`. `Downhill opt w st` says: with state `st`, the strategy of rate `α` changes the value `w` to
`w - α d`, where `d` does not depend on `α` and has the sign of the gradient in every element. `downhill_descends` derives
from the gradient theorem of a batch (C70) that the sum of the losses becomes smaller for all small enough `α`. The six
strategies are shown to be downhill for a parameter without state; AdaGrad and RMSProp for every state they produce
(squares are not negative), which gives descent after any number of epochs. RAdam is taken at time step 1, where it is in a
loop that never calls `IncBatch` (C75). Two theorems mark the limits: with momentum a second step can go uphill, and weight
decay moves elements whose gradient is zero.

## C79: rounding errors

`Spec/Rounding.lean` describes a floating-point format by its rounding function: idempotent, relative error at most `u`.
`Lemmas/Nearest.lean` gives the instance "nearest number with p significant bits" (p = 24, 53), that is IEEE 754 while
exponents stay in range.  `Lemmas/AsmRel.lean` proves that the machine of `Model/Asm.lean` is parametric in its elements:
two runs on related elements stay related.  `Props/Rounding.lean` runs every routine twice, once with the rounded
arithmetic and once with exact arithmetic on triples (value, sum of absolute values, polynomial counting the terms by
degree).  The exact run is known from C58; the relation between the two runs bounds the error by the number of terms and
their degree, whatever the order in which the routine combines its lanes.  `Props/RoundingDense.lean` does the same for
the loops of `Mul`, `MulT`, `DotUnitary` and `Sum`, whose model is generic in the element type; leaving out rows with
factor 0 is accounted for.

`Props/RoundingF32.lean` replaces the abstract rounding by the 32-bit words of `Model/F32.lean` and `Model/F32Fma.lean`
(sum, product and fused multiply-add, bit by bit).  A word belongs to the exact value if, being finite, it is close to it.
Finite results have finite operands, so nothing has to be assumed about the other words in memory and registers.  A second
run on polynomials marks one element and shows that it is finite when the result is.  Underflow costs at most half the
smallest subnormal number per operation; since `(2^-63)^2` is the smallest normal number, adding `2^-63` to the magnitudes
pays for it.  `puregoDot_finite` gives a condition on the elements under which the portable loop does not overflow; for the
assembly routines such a condition is not proved (the relation does not exclude that a zero lane meets an overflowed one).

### C80: classes and absolute errors

`Model/RecordLosses.lean` records the operators of `MAE`, `LogSumExp`, `CrossEntropy` and the losses built on it.
`LogSumExp` subtracts `ReduceMax`, which has no derivative at ties. The proof does not ask for distinct scores:
at the parameters in question the program cannot be told apart (`Alike`: same operands, same values, same backward
functions at these values) from the one with `At(k)` in place of `ReduceMax`, where `k` is the index that `ArgMax`
finds; that program is smooth and computes the same loss for all parameters, since `m + log Σ exp(x_i - m)` does not
depend on `m`. `Trains.alike` says that a program alike one that trains a model trains it too.

### C81: the portable routines with increments

`Model/Strided.lean` has the loops of `axpy.go`, `scal.go`, `dot.go`, `ge_noasm.go`, `gemv.go` and
`stubs_noasm.go` on lists (one list per slice, no overlap, capacity = length), with `uintptr`s as
numbers modulo 2^64.  No law of arithmetic is assumed except, for GemvN and GemvT, that sums and
products commute (the two branches write the operands in different orders); so the theorems hold for
the rounded operations too.  Trusted: that Go's `int(n)` for `n ≥ 2^63` is negative, and that an index
of type `uintptr` outside the slice panics.

### Training with a conditional random field (C82)

`Model/RecordCrf.lean` records `NegativeLogLoss` operator by operator on top of any `Net`: the gold score, the forward
recursion with its nil `Add`, the nested loop over pairs of labels, and the sum at the end. The transition scores are
tensor `N.size`, a parameter behind those of the network. `crfLoss_sim` shows that every operator is used where it is
differentiable and that the value is `-log` of the probability of the target in the terms of `Spec/Crf.lean`;
`crf_trains` concludes by C62/C66 that `Backward` gives its derivatives.

### Taggers (C83)

Model/RecordTagger puts the pieces together: `MustEncode` picks the vectors of the words, a network of C69 runs on them, and
the loss is that of C82 or one of C80. The vectors are parameters of the program behind those of the network, and a word that
occurs twice is used twice. Props/BatchOf is the loop over samples (C73) for losses that depend on the example. Props/Unused
is about the operators of a program only: a leaf from which no path of operands leads to the output keeps its gradient
exactly, and the code of every layer and loss names only its own parameters and its inputs.

### C84: Softmax of float32 end to end

`Model/Softmax32.lean` puts together what the earlier models give separately: the maximum loop, `AddConst32`, `Exp32` in place,
`Sum32`, a division of float32, `MulConst32` in place, all on binary32 words in one byte-addressed memory.  Division is new
(`divIeee`, rounding of an integer quotient with a sticky bit).  The proof goes through the error of each step
(`Lemmas/Softmax32.lean`): the difference to the maximum is off by `88/2^24` or is below -88, where both exponentials are
below the normal numbers; the exponential adds `2^-21` (C60); the sum adds `(1+2^-24)^(n-1)-1` (C79), and does not overflow
because a second run of the same instructions counts the elements (`Props/SumFinite.lean`); division and product add two
roundings.  Trusted: `math.Exp` with the conversions is within the bound `GoodExp`.  The portable build is not treated here.

### C85: the CRF loss on float32

`Model/Crf32.lean` runs the functions of `Model/Crf.lean` on binary32 words; the scores are tensors of one element, so `Exp32`,
`Log32` and `Add32` go through their scalar tails (an addition is one `ADDSS`), and only the last `ReduceSum` is a vector
routine, taken from C79/C84.  `math.Exp` and `math.Log` with the conversions are parameters: right up to one part in 2^23,
overflow of the exponential between 88 and 89 (`Scalars`); `exists_scalars` constructs such functions from rounding to the
nearest.  The accuracy theorem follows the recursion with an absolute error of `2^-15 + n/2^23` per position in the logarithmic
domain.  The overflow theorem is general: it needs a lower bound on the scores only.

## Causal networks (C86)

The networks of C69 have further layers: causal self-attention, `LogSoftmax`, `ScaleNorm`, `FixNorm`, `LayerNormSimple`,
squared distances and the activations `Tan`, `HardSigmoid` and `HardTanh`, so everything proved about training networks
(C69, C70, C80, C82, C83) covers them. Masked scores are minus infinity, which is no real number; `Add` of the mask and
`Softmax` are one operator, `softmaxMasked` (Model/MaskedSoftmax.lean), whose values in between are reals with a bottom element.
`Net.Causal` says which networks look back only, and `causal_outputs` compares two runs of the recorded code. Multi-head
attention is not a layer here because its `Backward` does not return (C35); networks with a single head are covered by
`selfattention.Model`. Left out are `AdaNorm`, whose gradient is stopped in the middle, `GELU` (C47), and the activations with
parameters.

### C87: the cross entropy on float32

`Model/CrossEntropy32.lean` runs the operators of `losses.CrossEntropy` with the assembly routines of C60 and C79.  Not
negative: rounding keeps the order (`Lemmas/F32Mono.lean`), the exponential of 0 is exactly 1 in every kernel, so the sum is at
least 1, its logarithm at least 0, and the result of `LogSumExp` at least every score.  Trusted: the scalar `math.Exp` and
`math.Log` with the conversions are within `GoodExp`, `ExpOne`, `GoodLog`.  The portable build is not treated.

### C105, C106: norm clipping on float32

`Model/Clip32.lean` and `Model/ClipTwo32.lean` run `NormClipper.ClipGradients` on binary32 words.  What is float32 in the code (`Abs`, `Max`,
the squares, `Sum`, the products) is computed bit by bit, with the kernels of C60 and C79.  What is float64 (the sum over the gradients, the
root, the quotient, the comparison with 1) is a parameter.  Trusted: this parameter is as accurate as `GoodCoef` and `GoodRoot` say, which is
less than float64 provides, and `math.Pow(x, 2)` is exact for a float32 `x`.  Both assumptions are shown to be satisfiable.
