# Formal model of SmartDNN in Lean 4

This directory contains a Lean 4 model of the header-only C++ library in `/repo/smart_dnn` and
kernel-checked proofs of the properties listed in `properties.jsonl`.

## 1. Layout

| path | content |
|---|---|
| `lean/Verif/Model/*.lean` | the model, function by function; every definition cites file and lines |
| `lean/Verif/Spec/*.lean`  | small independent specifications (index tuples, broadcasting rule, sums, value store, ...) |
| `lean/Verif/Proofs/*.lean`| helper lemmas |
| `lean/Verif/Props/*.lean` | the property theorems `Cnn_*`, each with a concrete non-vacuity `example` beside it |
| `seeded/LOG.jsonl` | log of seeded-bug experiments against the theorems |
| `seeded/mut.py`, `driver.lean.txt`, `axioms.lean.txt` | the tool that runs them (section 7) |
| `MANIFEST.json` | property -> theorem names and status |
| `AXIOMS.txt` | axioms of every property theorem, as collected by Lean |
| `tools/` | generators of `properties.jsonl`, `MANIFEST.json`, `Verif.lean` |

Names: `Cnn_..._refuted` proves that the code violates the property as stated (for a concrete witness or,
mostly, for a whole class of inputs).  `Cnn_..._partial` proves the part that holds; its comment says what is
missing.  All other `Cnn_...` theorems are (parts of) the full property.

## 2. Modelling decisions

* **Outcomes.** A C++ call is a value of `Res a = Except Err a`.  `Err` distinguishes the exception
  classes the library throws, a failed `assert` (`abort`; the CMake build is Release without `-DNDEBUG`, so
  asserts are active), *undefined behaviour* (`ub`: out-of-range raw access, null/nullopt dereference,
  division by zero on integers) and non-termination (`diverge`).  A theorem that says "= ok v" therefore also
  says: no UB, no exception, terminates.  Member functions that mutate are `Mut` actions returning the outcome
  *and* the object state, so what an exception leaves behind is visible.
* **Integers.** `size_t` arithmetic in `Shape`/`computeFlatIndex` is modulo 2^64; the `int` flat
  index of the views is narrowed modulo 2^32 as in the code.  Other `int` expressions (loop counters,
  output sizes) are mathematical integers with C++'s truncating division.  Theorems about tensors
  quantify over tensors with fewer than 2^31 elements ("`Dims`"), the range in which the library's
  `int` indices are meaningful; what happens outside is the subject of C03.  Signed overflow of other `int`
  expressions is modelled only in the dataset code (`stepLoop`, `generateBatchedLinearDataset`).
* **Scalars.** The element type `T` is arbitrary.  Structural theorems assume *no* algebraic law,
  only the operation symbols, so they cover IEEE `float` with the code's exact evaluation order.
  Theorems about algebra assume a (commutative) ring/field, theorems about analysis instantiate
  `T := Real`.  Rounding error is the subject of C77, overflow and NaN of C81 and C82: the other analytic theorems are about exact arithmetic.
  `==` of tensors uses an arbitrary element comparison (C22 covers NaN); the comparisons of scalars with 0
  (division, optimizer options) use `DecidableEq`.
  Literals such as `T(1e-7)` are parameters.
* **Memory.** A tensor is a shape object plus the list of its buffer's elements; raw accesses are
  bounds-checked and yield `ub` outside.  Copy/move/ownership is modelled separately with an
  explicit heap and an arbitrary allocator (`Model/Heap.lean`); C21 proves that it refines the value view
  used everywhere else.  In-place operators are modelled with an explicit "same object" case.
* **Randomness.** The engine is an abstract state machine (any type of states, any draw function).
* **Concurrency.** The library has only OpenMP loops.  Loops are sequential in the main
  model (the shipped CMake build does not enable OpenMP); `Model/Parallel.lean` models them as
  threads of memory accesses with arbitrary assignment of iterations and arbitrary interleaving.  Memory is
  sequentially consistent, which C++ guarantees to race-free programs; races themselves are a predicate
  (`Config.Race`), and the positive theorems prove their absence.  `omp simd` reductions, which reorder a
  sum, are trees of lane sums in `Model/Simd.lean` (C91); all other claims take the loops in order.  `Model/Threads.lean` uses the same machinery for user threads that call `predict` at the same time:
  each tensor or shape member that some `forward` assigns is one shared place.  Concurrent `train`, `compile`,
  `addLayer` and setter calls are not modelled.
* **Optimizer maps.** `unordered_map`s keyed by addresses are functions from keys; tensors keep their address
  while alive.  Gradients are passed by value.  The `int` iteration counter of Adam is unbounded.
* **Key specification device.** `ofFn ds f` is the tensor of dimensions `ds` holding `f idx` at every
  index tuple in row-major order.  Every valid tensor is of this form (theorem `exists_ofFn`), so an
  equation `op (ofFn ds f) = ok (ofFn ds' g)` describes shape and every element.

## 3. Trusted base

* Lean 4.33.0's kernel; Mathlib's definitions used in statements (reals, `HasDerivAt`, `Real.exp`,
  `Real.log`, `Real.sqrt`, finite sums, lists, `gaussianReal`).
* Axioms: at most `propext`, `Classical.choice`, `Quot.sound`; `AXIOMS.txt` lists them per theorem.  No own
  axioms, no `sorry`, no `native_decide`/`bv_decide`, no `implemented_by`, no `unsafe`.
* The hand translation C++ -> Lean (cited line by line in the model's comments).

### Modelled

`Shape/Shape.hpp`, `Shape/ShapeOperations.hpp`, `Tensor/TensorData.hpp`, `Tensor/TensorDataCPU.impl.hpp`,
`Tensor/Tensor.hpp`, `Tensor/Tensor.impl.hpp`, `Tensor/BroadcastView.hpp`, `Tensor/SliceView.hpp`,
`Tensor/TensorOperations.hpp`, `Tensor/AdvancedTensorOperations.hpp`, `Tensor/TensorFactory.hpp`,
`RandomEngine.hpp`, `Activations/*`, `Loss/*`, `Optimizers/*`, `Layers/*`,
`Regularisation/*`, `Layer.hpp`, `SmartDNN.hpp`, `SmartDNN/SmartDNN.impl.hpp`, `Datasets/*`, `Debugging/Logger.hpp`, and the two programs
in `examples/` (the MNIST program up to the end of its training call, which is never reached).

### Not modelled

* The stream inserter for elements (`oss << data_[i]`, float formatting): a parameter of the printing model.
* `TensorData(Shape, T*)` (takes ownership of a raw pointer; never called) and GPU specialisations (absent).
* `saveModel`, `loadModel`: declared but not defined in the code.
* Allocation failure, stack overflow, time.
* IEEE rounding, NaN and infinities outside C77 and C96 (rounding), C105 and C108 (monotone and exact results with rounding), C91 (order of summation), C81 (overflow and NaN), C82 (propagation of NaN), C22 (NaN in comparisons)
  and `negInf` of max pooling; the sign of zero everywhere.
* The Mersenne Twister, `std::generate_canonical` and the polar method of `std::normal_distribution` (abstract; C49 and C122 add
  hypotheses about the law of the draws).
* Compilation: some members do not compile when instantiated (`Conv2DLayer`'s constructors with 4-6 `int`
  arguments are ambiguous; `Tensor::operator-=(T)` and `operator*=(T)` call `substractScalarInPlace` and
  `multipleScalarInPlace`, which do not exist; `#include "smart_dnn/debugging/Logger.hpp"` has the wrong case on case-sensitive file
  systems).  The model describes what the functions do when they compile.

### Simplifications (also stated at each definition)

* `break` in `findMaxInPoolWindow` is modelled as skipping the rest of the loop (coordinates only grow).
* When a loop of `Conv2DLayer::backward` throws half-way, the gradient member is left at zero in the model.
* `Net.backward` returns the last gradient, which the code drops.
* The engine accesses of one draw are merged into one read and one write (C70).
* Index vectors of the wrong length on views are `ub`.
* The counter of Adam has no bound, except in Model/IntCounter.lean, where it is a 32-bit `int`; C94 says when the two agree.

## 4. Properties and how they are proved

| id | model | how |
|---|---|---|
| C01 | `Shape.make` | induction on the dimension list; size modulo 2^64 |
| C02 | `computeFlatIndex`, `Tensor.at_` | row-major rank/unrank bijection by induction on dims |
| C03 | same | `_partial`: safe below 2^64 elements; refuted for (65536,65536,65536,65536) |
| C04 | `Shape.reshapeM` | case analysis; overflow check shown sound |
| C05 | `broadcastShapes`, `areBroadcastable` | loop invariant against the `max`-based rule |
| C06 | `binop` via `BroadcastView` iterators | odometer enumeration theorem + index projection |
| C07 | `binopInPlaceM` with aliasing | loop invariant "prefix updated, suffix original" |
| C08, C09 | scalar ops, apply family | map equations |
| C10, C11 | `sumAll`, `sumAxis`, `sumAxes` | scatter lemma: accumulate loop = fold over fibre; C11 refuted for all-axes |
| C12, C13 | `mean*`, `variance*` | composition of C10/C11 equations, fibrewise summation |
| C14 | `transpose` | per-element index swap, involution |
| C15-C17 | `matmul` family | nested loop = sum; semiring laws through `Finset.sum`; C17 refuted + `_partial` |
| C18, C19 | views | odometer = row-major enumeration; refutations + `_partial` |
| C20 | `Tensor.slice` | refuted for dim >= 1 (wrong elements; but C20_in_bounds: never out of range) + `_partial` dim 0 |
| C72 | `Model/Network.lean`, `Model/Layers.lean` | forward simulation between a run on 1-D samples and a run on (1,n) batches, layer by layer, then over steps and epochs |
| C75 | `Tensor.dotProductSlice`, `Tensor.matrixMatrixMulSlice` | C19's description of the window, then as C15; stated against `matmul` of the copied windows |
| C76 | `SmartDNN.train` on `FullyConnected` + `MSELoss` + `SGD` | the parameter error drops per step by `4·lr·(1-κ)` times the loss (one-step identity), so the losses are summable; the one-row case is a closed form, which also gives divergence above the threshold |
| C77 | the law-free equations of C10, C12, C15, C32, C37, C43 at a type with rounded operations | `Spec/Rounding.lean` states the IEEE 754 guarantees (`FloatModel`) and constructs a binary format meeting them; induction over the left-to-right sum |
| C73, C74 | `Model/Examples.lean`: both programs in `examples/` | C73 by composition of C37, C60, C72; C74 by splitting the stack at the last batch normalisation layer, C47 and C58 |
| C21, C71 | `Model/Heap.lean` | forward simulation between heap model and value store (`Spec/Store.lean`); unique-ownership invariant |
| C22 | `==`, `toString` of shapes | list equality; injectivity of decimal printing |
| C23, C24 | factories, random engine | map equations, state threading |
| C25-C28 | activations | map equations; `HasDerivAt` over the reals; softmax finite sums |
| C29-C31 | losses | sums of squares, log bounds, `HasDerivAt`; C31 refuted + `_partial` |
| C32-C36, C65, C69 | optimizers | induction over call histories |
| C37-C38 | fully connected | composition of tensor equations; adjoint identities |
| C39 | flatten | round trip; stale shape refuted |
| C40-C42, C66 | max pooling | loop invariant of the arg-max scan; scatter lemma; padding refuted |
| C43-C44, C64 | convolution, im2col/col2im | nested loop equations; `_partial` + refutations |
| C45-C47 | batch normalisation | composition of tensor equations; refutations; the textbook gradient as a transposed derivative, compared with what `backward` returns if its out-of-range read is harmless |
| C48-C50 | dropout | map equations over the random stream; refutations |
| C51 | all layers' backward on fresh state | case analysis; refuted for three layers |
| C52-C56 | network | induction over layers/epochs/samples |
| C57-C60, C63 | datasets | byte-stream parser model, batching arithmetic |
| C61, C62, C70 | `Model/Parallel.lean` | any-interleaving induction with a merge invariant; race witnesses |
| C67 | whole network | a dimension-typing invariant preserved by every training step |
| C78 | whole network | `Proofs/Joint.lean`: product rule per layer with input and parameters moving together, induction over the stack, negative derivative at learning rate 0 |
| C79 | `Model/Print.lean`: `toDataString`, `toDetailedString`, the console lines of `train`, the logger | loop equation; parsing back at the separators |
| C80 | dense layer, softmax, cross entropy, SGD | chain rule along the step training takes; the slope is a variance for one row, and positive for a concrete batch of two |
| C81 | activations at `Ieee R`: numbers of a format `R`, two infinities, NaN (`Spec/Ieee.lean`; one zero only; the `<cmath>` functions are the hypothesis `Libm R`, met by correctly rounded functions) | range invariants: sigmoid, softmax and `tanh(softplus)` stay in [-1,1], products with such factors cannot overflow; Tanh fails exactly if `exp(2x)` overflows |
| C82 | tensor operations, all layers, losses, optimizers and `train` at `Ieee R` | dataflow invariants for one layer, induction over the layers (forward, backward, update), samples and epochs with C55_train; for ReLU, max pooling and channels a convolution does not read the negation |
| C83 | setters and getters of fully connected and convolution layers, `getLayer` | symbolic execution; copying: `forward` in evaluation mode depends only on parameters and settings (case analysis over layers, induction over the stack); the negations for batch normalisation, misfitting parameters and short gradients |
| C84 | `predict` (both overloads) over all layer kinds in evaluation mode | each layer is one function of an entry, the same for every batch size (loop lemmas without any law of arithmetic, `Proofs/BatchRows`); composition by induction over the stack; a training-mode batch normalisation witness shows the restriction is needed |
| C85 | training reaches every parameter | invariant over all histories of calls (layer gradients and optimizer memories stay zero outside the first filter); refutation and `_partial` |
| C86 | using one model does not influence another | interleaved calls on two models over one engine; per-model non-interference by induction on the calls; refutation for dropout and `_partial` |
| C87 | the order of the samples in a batch does not matter for training | simulation between two runs related by row permutations (real arithmetic); refutation for convolution and dropout and `_partial` |
| C88 | a training step on a batch is the average of the steps on its samples | forward and backward of every layer act row by row and linearly in the gradient; induction over the layers; refutation for convolution and dropout and `_partial` |
| C89 | training a linear model converges to the best affine fit | energy argument: every step lowers the error and moves the parameters towards every better fit; telescoping sum and infimum |
| C90 | predictions from several threads | `predict` as a program of accesses to the members of the layers (Model/Threads.lean), proved to refine `Net.predictAll` when run alone; disjoint footprints for separate models; refutations by explicit interleavings |
| C91 | vectorised sums give the result of the sequential loop | reductions as trees of lane sums (Model/Simd.lean); induction on the tree: equal to the plain sum in a commutative monoid, standard summation error for a rounding model; a concrete pair of trees that differ in single precision |
| C92 | an exception during training | `C55_train_fails` locates the failing step; every layer's forward and backward leave the parameters alone, and `updateWeights` after a completed backward pass can only fail with undefined behaviour; a simulation relation up to cached inputs for later calls |
| C93 | training does not use more and more memory | count the numbers in all tensor members and optimizer entries; invariant of a training step: the entries of the optimizer are those of the parameters, each of the size of its parameter, and each layer holds gradients of the size of its parameters and one batch; induction on steps, epochs and calls |
| C94 | training can go on for as long as one likes | `train` with a 32-bit counter in Adam (Model/IntCounter.lean), compared with the unbounded model: equal while there is room (induction on layers, samples, epochs), undefined behaviour as soon as there is none |
| C95 | convolutional stacks look at windows and follow translations | window calculus (size, step) by recursion over the layers; per layer: forward on two batches agrees where the windows agree (convolution sum, pointwise activation, uniqueness of the window maximum); induction over the stack |
| C96 | rounding errors through whole models | two runs side by side, one on numbers of a format and one on the reals with the same parameters; bounds (size, error) pass from layer to layer; closed form for dense + ReLU by induction; peak bound for absence of overflow; single precision as an instance |
| C97 | small changes of input and parameters make small changes of predictions | two runs side by side on the reals; per layer the pair (size, change) is passed on; mean value inequality for activations and softmax, comparison of maxima for pooling; product of gains by induction; continuity from the same bounds |
| C98 | the order of hidden units does not matter, equal units stay equal | relation between two models layer by layer (renamed weight matrices) and between the optimizers' maps (renamed entries); forward, backward, `optimize` and `updateWeights` preserve it; induction over layers, samples and epochs; equal units: the model is its own renaming under a swap |
| C99 | data of the wrong shape are reported | a table of answers per kind of layer (Spec/Answers.lean), `predict` refines it by induction on the layers; `train` by induction on samples and epochs, with gradients of matching dimensions as the invariant of the way back |
| C100 | Adam and RMSProp: bounded steps | invariants of the optimizers' maps for every key and position (m^2 <= C v for Adam, bounded velocities for RMSProp) preserved by every call; Bernoulli for the bias corrections; loop invariant position by position; induction over layers, samples, epochs and histories, counting updates |
| C101 | consistent tensors | `Gives P r` (what a call returns satisfies P) and `MGives I P m` (a method keeps I, also when it fails, and returns P) with one rule per construct of the programs; one lemma per library function, element type without laws; inductive set of reachable tensors; induction over layers, samples, epochs and histories |
| C102 | ranges of predictions and losses | an invariant of all calls: the list of activations stays; the last layer's output is in range for every intact argument (C101); losses: `MGives` over the training loop with the invariant that the running total and everything printed is not negative |
| C103 | a fitted model stays | if a gradient is zero, every `backward` gives zero and stores zeros (law by law over the tensor operations, `Gives`), every optimizer step on zero gradients keeps the parameters (C85's `Quiet`), and an invariant of the training loop: equal parameters, quiet optimizer, zero losses |
| C104 | outcomes depend on shapes alone | a relational logic for pairs of runs (`SameOutcome`, `MAgree`, `HAgree`) over two arbitrary number types; every function of the library is shown to respect the relation "same shape"; the position of the maximum in the pooling gradient does depend on the numbers, and is shown to be writable wherever it is because the forward pass has read the corner of each channel |
| C105 | order through the layers | the relational logic of C104 with "nowhere larger" in place of "same shape", used on two runs of the same model |
| C106 | scale and sign of gradients | from the recurrences of C32 to C34 by induction over the history: squares scale by the square, running means by the factor, and the quotient not at all |
| C107 | weight decay | the loop of SGD with decay in closed form and C54 give the step; induction over the recurrences of C32 and C34; for Adam the bound of C100 on the step with the L2 term removed, as an invariant of every call on a model |
| C108 | whole numbers are exact | relational proof between three runs of the same code: rounding arithmetic, exact arithmetic, and exact arithmetic on absolute values, joined by an arithmetic of pairs (value, size) |
| C109 | rewriting models | closed forms of the layers (C15, C37, C40, C43, C46) and algebra; exchange inside a model by induction over the layers before; scaling as a relation between two runs |
| C110 | what the losses ask for | closed forms of C29 and C30; completing the square for the mean squared error, log x <= x - 1 (Gibbs' inequality with clamping) for the cross entropy |
| C111 | what models can fit | closed forms of the layers; a direction that separates the inputs (a nonzero polynomial has a point where it does not vanish), interpolation by ReLU by induction over the values in increasing order; induction over the layers for models without activations |
| C112 | training with dropout | `Thinned`: the composed function for the numbers the engine delivers; chain rule by induction over the layers, each dropout layer contributing the factor `1 - rate` |
| C113 | silent hidden units | `Silent`: invariant over use (unit's column and bias as at the start, optimizer state zero at these positions); the derivative of ReLU used is zero at and below zero, so the gradients at these positions are zero |
| C114 | batch normalisation in training mode | `NormReach`: from the formula for the answer (C45); mean and variance under shifts and factors; Samuelson's inequality for the bound; `Interchangeable` (C109) for the models |
| C115 | input features that are always zero | `Unlit`: invariant over use (the row of the first weight matrix as at the start, optimizer state zero there); the gradient of that row is a sum of products with the zero entry; `ravel` for its position behind flatten |
| C116 | the order of features and classes | `Labels`: relation between two models (`RenamedAll` of C98 with renamed inputs and outputs, and softmax behind) kept by forward, loss, backward and optimizer; induction over steps and epochs |
| C117 | input features that are always equal | `EqualAt`: invariant over use (the difference of two rows of the first weight matrix as at the start, everything the optimizer remembers equal in the two rows, `EvenOn`); closed forms of the optimizers' loops |
| C118 | directions that the data never show | `OrthogonalTo`, `along`: invariant over use (each column of the first weight matrix along u as at the start, velocity orthogonal to u); SGD's update is linear (`sgdCell_linear`); witnesses for RMSProp and Adam: one step on the sample (1, 2) |
| C119 | signs of features, units and targets; zero of the targets | `Mirrored`, `MirroredAll`, `Mirrors`: relation between two models kept by training (as `Twins` for C98): weights up to signs, biases up to signs and a shift, averages of gradients up to signs, averages of squares equal; the updates of one number are odd (`sgdCell_mirror`, `rmsCell_mirror`, `adamCell_mirror`); tanh is odd; the squared error sees differences only |
| C120 | outputs of one dense layer are learned separately | `Aligned`, `SameOutput`: relation between two models kept by training: equal in front of the dense layer, equal in one column of the parameters, of the optimizers' memories and of everything behind; a layer without parameters is not changed by `backward` (`backward_keeps`); the gradients of both losses are elementwise (`loss_column`) |
| C121 | linear regression is linear in targets and initial parameters | `Superposed`: relation between three models kept by training: equal layers in front, parameters and momenta of the third combined from the other two; the layers in front do not see the targets (`regression_front`); gradients of the squared error and SGD's rule are linear (`lossGrad_combine`, `wGrad_combine`, `cGrad_combine`, `sgdCell_combine`) |
| C122 | distributions of random numbers | `RandSource`: the engine with what libstdc++'s distributions take from it; laws as push-forward measures, `gaussianReal_map_mul_const`; rand of tensors refuted: a normal number cut off at 0 is 0 half of the time |
| C123 | new dense layers have no dead and no equal outputs | refuted: joint law of the weights (C122) and the formula for the answer (C37); equality of two outputs read off unit inputs; two independent normal numbers differ almost surely (`gauss_distinct`, product measure); that dead units stay dead follows with C113 |
| C68 | whole network | chain rule over the layer stack: one step = weights - lr * exact gradient |

## 5. Disagreements found between the code and the expected behaviour

Each is proved in Lean; the theorem is named.

| finding | theorem |
|---|---|
| `Shape` sizes wrap modulo 2^64; `at` then passes its check outside the buffer | C03_refuted |
| writing `shape[i]` leaves size and strides stale; `at` leaves the buffer | C03_stale_dimension_refuted |
| `sum` over all axes throws | C11_all_axes_refuted |
| batched `matmul` throws `out_of_range` for every pair of different batch shapes | C17_unequal_batches_refuted |
| a `BroadcastView` to a target of smaller rank is accepted | C18_larger_rank_refuted |
| `SliceView` ignores the end of every range | C19_end_refuted |
| `Tensor::slice(dim, i)` returns the wrong elements for dim >= 1 | C20_refuted |
| `LeakyReLU` uses slope 1 at 0, its header documents alpha | C25_leaky_at_zero_refuted |
| `Softmax::backward` does not check the gradient's size: reads outside the buffer | C28_small_gradient_unchecked |
| cross-entropy `gradient` is not the derivative of `compute` (it is the softmax-fused one, and is then chained through softmax again) | C31_gradient_refuted, C31_chain_refuted; C80_refuted: training a softmax classifier on a batch of two can raise the loss at every small learning rate |
| centred RMSProp has no step bound | C33_centered_unbounded |
| Adam corrects the bias twice | C34_refuted |
| Adam's step counter advances once per layer, not per step | C69_refuted |
| SGD/RMSProp keep state by address; a new tensor may inherit old state | C65_refuted |
| fully connected backward of a 1-D sample returns shape (1,n) | C38_sample_shape_refuted |
| flatten backward after a rank-2 forward: undefined or stale | C39_matrix_fresh_refuted, C39_matrix_stale_refuted |
| max pooling with padding always throws; on integers all-negative windows give 0; with all -infinity windows the gradient goes to (0,0) | C42_padding_refuted, C66_integer_refuted, C41_minus_infinity_refuted |
| Tanh's forward computes (exp(2x)-1)/(exp(2x)+1), so large finite inputs give NaN instead of 1 (backward uses `std::tanh` and is fine) | C81_tanh_refuted, C81_tanh_iff, C81_tanh_witness_refuted |
| ReLU (`std::max(0, x)`) turns NaN into 0 and max pooling (`if (val > maxVal)`) skips NaN, so models with these layers give finite predictions for inputs with NaN | C82_relu_refuted, C82_hidden_refuted, C82_maxpool_refuted |
| `setWeights` accepts every shape, `setBiases` any row (a single bias is silently added to every output), nothing relates gradients to weights, so that after `setWeights` with a larger tensor `updateWeights` reads outside of the stored gradient; batch normalisation has no accessors, so a model containing it cannot be copied | C83_weights_refuted, C83_single_bias_refuted, C83_short_gradient_refuted, C83_gradients_refuted, C83_batchNorm_refuted |
| convolution ignores stride, padding, dilation and all input channels but the first; backward ignores all but the first sample and output channel | C43_*_refuted, C44_refuted, C44_kernel_refuted, C44_input_refuted |
| filters of a convolution layer other than the first, and kernels of input channels other than the first, are never trained | C85_filters_refuted, C85_outputs_refuted |
| batch norm: evaluation after rank-4 training throws for >= 2 features; backward always has undefined behaviour | C46_rank4_refuted, C47_refuted |
| batch norm: where the read past the shape is harmless, the input gradient's variance term has an extra factor 1/(var+eps), and batches of images divide by the number of images instead of the number of averaged values | C47_benign_refuted, C47_benign_images_refuted |
| im2col: a kernel larger than the padded image by less than the stride still yields one window (division truncates towards zero) | C64_oversized |
| dropout draws a clamped normal of variance 2 / size, so it keeps less than half, and in large tensors almost nothing; backward omits the rescaling; evaluation-mode backward undefined or throws | C49_*_refuted, C50_*_refuted |
| backward before forward is undefined for activation, flatten, dropout layers | C51_refuted |
| `train` with fewer targets than inputs reads out of bounds | C55_short_targets |
| truncated MNIST image files are accepted (missing pixels = 1); truncated headers are undefined | C59_refuted, C59_header_refuted |
| `generateBatchedLinearDataset(n, 0)` divides by zero | C60_zero_batch |
| `toAsciiArt`: values <= -0.1 index outside the ramp | C63_negative |
| `transpose` and random tensors race under OpenMP | C62_*_refuted, C70_*_refuted |
| LeakyReLU, Swish, Mish or dropout directly before a dense layer throw when training on 1-D samples, although predicting on them works | C72_activation_refuted |
| training any model with a batch normalisation layer, in particular the shipped MNIST example, is undefined behaviour at the first sample | C74_refuted, C74_mnist_refuted |
| a tensor moved from by assignment has a null buffer and its old size | C71_move_assign_refuted |
| all dropout layers of a program draw from one static engine, so using one model changes the training of another one with dropout | C86_dropout_refuted |
| with a convolution layer the result of training depends on the order of the samples in a batch, since only the first contributes to the gradients; with dropout it depends on it too | C87_convolution_refuted, C87_dropout_refuted |
| with a convolution or dropout layer a step on a batch is not the average of the steps on its samples | C88_convolution_refuted, C88_dropout_refuted |
| an exception thrown by the loss or the backward pass leaves batch normalisation's running statistics updated with the failing sample and dropout's random numbers consumed | C92_running_refuted, C92_dropout_refuted |
| an exception thrown by the loss leaves a flatten layer with the dimensions of the failing images, so that training on matrices, which worked before, throws afterwards | C92_flatten_refuted |
| `predict` writes the layers (`this->input = input`, `originalShape`, `mask`, running statistics), so concurrent calls on one model race; flatten can return a tensor with the wrong number of rows; dropout in training mode makes even separate models race on the process-wide engine | C90_race_refuted, C90_wrong_result_refuted, C90_dropout_refuted |
| Adam counts the calls of `optimize` (one per layer with parameters and step) in an `int`, which overflows after 2^31 - 1 calls | C94_overflow, C94_refuted |
| a convolution stops the program (assert) on data that are not four-dimensional or have the wrong number of channels, where other layers throw | C99_image_refuted |
| the cross entropy reads `shape[1]` of one-dimensional targets: undefined behaviour when a classifier is trained on single samples | C99_vector_classes_refuted |
| a flatten layer that has not seen images dereferences an unset optional when trained on matrices: undefined behaviour | C99_flatten_refuted |
| more inputs than targets: `train` reads behind the end of the targets | C99_no_target_refuted |
| with the cross entropy a model that predicts one-hot targets exactly is moved away from them by a training step, since the gradient compares the target with the prediction cut off at `1 - epsilon` | C103_onehot_refuted |
| Training a model with dropout layers uses a smaller learning rate for every layer in front of a dropout layer, by the product of the keep rates, because `DropoutLayer::backward` does not scale by `1 / (1 - rate)` as `forward` does. | `C112_gradients`, `C112_step`, `C112_factor` |
| clamping makes the cross entropy prefer, by a tiny amount, answers that move probabilities below eps elsewhere; the bound shows that the effect is of the order of eps | C110_clamping |
| the weight decay of RMSProp is part of the gradient that is normalised, so it does not bound the weights (C107_rmsprop_unbounded); biases are decayed like weights by all optimizers | C107_rmsprop_unbounded |
| a dense layer accepts three-dimensional data in `forward` but its `backward` throws on them | C99_sequences |
| batch normalisation for several features accepts a batch with one feature and answers with several, and batch normalisation for one feature accepts any number of features | C99_features_refuted |
| RMSProp and Adam move weights along directions that are orthogonal to all training samples; SGD does not (inherent in these methods, not a slip of the code) | C118_rmsprop_refuted, C118_adam_refuted, C118_sgd_partial |
| C123 | a new fully connected layer has dead and equal outputs with positive probability, because `Tensor::rand` cuts off at 0 (Layers/FullyConnectedLayer.hpp:18) |
| C122 | `Tensor::rand` is not uniform on [0, 1]: it cuts a normal number of variance 2 / size off at 0 and 1, so half of the elements are exactly 0 (Tensor/TensorOperations.hpp:307, RandomEngine.hpp:37-42) |

## 6. Numbers

Statements quantify over all sizes, ranks, parameters, histories and schedules in their hypotheses; the hypotheses
are listed in each statement and met by the `example` beside it.

## 7. Seeded bugs

`seeded/mut.py` applies one edit to a scratch copy of the model and rebuilds every dependent module with
`driver.lean.txt`, which elaborates a file and writes its `.olean` even when proofs fail (a failed theorem is replaced
by `sorryAx`).  `axioms.lean.txt` then lists the property theorems that fail or depend on a failed lemma.  A theorem that
survives although its claim is false of the edited model is too weak; `LOG.jsonl` records every attempt and what was
tightened.
