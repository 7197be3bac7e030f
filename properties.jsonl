{"id": "C01", "title": "Shape construction accepts exactly the valid dimension lists", "statement": "Constructing a Shape succeeds exactly when the list is non-empty and every dimension is positive, and otherwise throws std::invalid_argument. After success, rank() is the list length, getDimensions() is the list, size() is the product of the dimensions (whenever that product is representable in size_t) and getStride()[i] is the product of the dimensions after i.", "quantifier": "every list of int dimensions, of any length", "why_tests_cant": "The domain is infinite (every rank, size and element value); a test fixes a handful of literals.", "anchors": ["smart_dnn/Shape/Shape.hpp: Shape::Shape, validateDimensions, calculateSize, calculateStride"]}
{"id": "C02", "title": "Element addressing is an exact row-major bijection", "statement": "Tensor::at(indices) throws std::invalid_argument exactly when the number of indices differs from the rank, throws std::out_of_range exactly when some index is negative or >= its dimension, and otherwise addresses one element of the buffer; distinct valid index tuples address distinct elements, every element is addressed by some tuple, and the order of the flat buffer is the lexicographic order of the tuples.", "quantifier": "every shape with fewer than 2^64 elements and every index list", "why_tests_cant": "The domain is infinite (every rank, size and element value); a test fixes a handful of literals.", "anchors": ["smart_dnn/Shape/ShapeOperations.hpp: computeFlatIndex", "smart_dnn/Tensor/TensorDataCPU.impl.hpp: TensorData::at"]}
{"id": "C03", "title": "at() never leaves the allocated buffer", "statement": "For every tensor that the public constructors accept, a call of at() that does not throw reads an element that lies inside the tensor's allocation.", "quantifier": "every shape the Shape constructor accepts, every index list", "why_tests_cant": "The failing shapes have more than 2^64 logical elements; no test enumerates them and a sanitizer only sees the shapes the test picks.", "anchors": ["smart_dnn/Shape/Shape.hpp: calculateSize", "smart_dnn/Shape/ShapeOperations.hpp: computeFlatIndex", "smart_dnn/Tensor/TensorDataCPU.impl.hpp: TensorData(Shape)"]}
{"id": "C04", "title": "reshape keeps the flat element order and is all-or-nothing", "statement": "reshape(dims) succeeds exactly when dims is non-empty, all positive and has the same element count; then the shape is dims and the flat sequence of elements is unchanged. Otherwise it throws and the tensor (shape, size, strides, elements) is exactly as before. Reshaping there and back is the identity.", "quantifier": "every tensor, every target dimension list", "why_tests_cant": "The domain is infinite (every rank, size and element value); a test fixes a handful of literals.", "anchors": ["smart_dnn/Shape/Shape.hpp: Shape::reshape", "smart_dnn/Tensor/Tensor.impl.hpp: Tensor::reshape", "smart_dnn/Tensor/AdvancedTensorOperations.hpp: reshape"]}
{"id": "C05", "title": "Shape broadcasting follows the trailing-dimension rule and is a join", "statement": "Two shapes broadcast exactly when, aligned at the trailing end and padded with 1, every pair of dimensions is equal or contains a 1; the result has the larger rank and the larger of the two dimensions at each position; otherwise std::invalid_argument is thrown. The broadcastability query agrees with success. Broadcasting is commutative, idempotent and associative wherever defined.", "quantifier": "all pairs (triples) of shapes of any rank", "why_tests_cant": "The domain is infinite (every rank, size and element value); a test fixes a handful of literals.", "anchors": ["smart_dnn/Shape/ShapeOperations.hpp: broadcastShapes, areBroadcastable"]}
{"id": "C06", "title": "Binary tensor arithmetic is element-wise over the broadcast shape", "statement": "a+b, a-b, a*b and a/b succeed exactly when the shapes broadcast; the result has the broadcast shape and the element at index i is the operation applied to a's and b's elements at i projected onto their own shapes (a 1-sized dimension is pinned to 0, missing leading dimensions are dropped). Neither operand changes and no read leaves a buffer.", "quantifier": "every pair of tensors with fewer than 2^31 elements in operands and result, every element type and operation (no algebraic law assumed, so IEEE arithmetic is included)", "why_tests_cant": "The domain is infinite (every rank, size and element value); a test fixes a handful of literals.", "anchors": ["smart_dnn/Tensor/TensorOperations.hpp: add, subtract, multiply, divide, addImpl", "smart_dnn/Tensor/BroadcastView.hpp"]}
{"id": "C07", "title": "Compound assignment equals the binary operator, also under self-aliasing, and fails cleanly", "statement": "a op= b succeeds exactly when the shapes broadcast to a shape with as many elements as a; then a keeps its own shape and its flat elements become those of a op b. This also holds when b is the same object as a. In every other case an exception is thrown and a is unchanged.", "quantifier": "every pair of tensors including the aliased pair (a,a), all four operators", "why_tests_cant": "Aliasing depends on the order of reads and writes for every size; a test with constant-filled tensors cannot see a read-after-write.", "anchors": ["smart_dnn/Tensor/TensorOperations.hpp: addInPlace, subtractInPlace, multiplyInPlace, divideInPlace", "smart_dnn/Tensor/Tensor.impl.hpp: operator+="]}
{"id": "C08", "title": "Tensor-scalar arithmetic maps every element and rejects a zero divisor", "statement": "t+s, t-s, t*s, s+t, s*t, s-t, s/t and -t keep the shape and apply the scalar operation to each element; t/s does the same when s != 0 and throws std::invalid_argument when s == 0, leaving t unchanged.", "quantifier": "every tensor, every scalar", "why_tests_cant": "The domain is infinite (every rank, size and element value); a test fixes a handful of literals.", "anchors": ["smart_dnn/Tensor/TensorOperations.hpp: addScalar, subtractScalar, multiplyScalar, divideScalar, inverseDivideScalar", "smart_dnn/Tensor/Tensor.impl.hpp: operator-(T,Tensor), operator/(T,Tensor)"]}
{"id": "C09", "title": "Functional apply is a pure pointwise map", "statement": "apply(t,f) has t's shape and element f(t[i]) at i and leaves t unchanged; the member apply does the same in place; applyPair(a,b,f) throws std::invalid_argument exactly when the shapes differ and otherwise yields f(a[i],b[i]) at every i; reciprocal yields 1/x when |x|>eps and 1/eps otherwise.", "quantifier": "every tensor, every function", "why_tests_cant": "The domain is infinite (every rank, size and element value); a test fixes a handful of literals.", "anchors": ["smart_dnn/Tensor/AdvancedTensorOperations.hpp: apply, applyPair, reciprocal", "smart_dnn/Tensor/Tensor.impl.hpp: apply"]}
{"id": "C10", "title": "Single-axis sum is the exact marginal", "statement": "sum(t) is the one-element tensor holding the left-to-right sum of all elements. sum(t,axis) throws std::runtime_error exactly when axis >= rank; otherwise it removes that dimension and each result element is the sum, in increasing order along the axis, of exactly the elements that project onto it (for rank 1 it is the total, shape (1)). The total of the result equals the total of the input in exact arithmetic.", "quantifier": "every tensor, every axis", "why_tests_cant": "The domain is infinite (every rank, size and element value); a test fixes a handful of literals.", "anchors": ["smart_dnn/Tensor/TensorOperations.hpp: sum(tensor), sum(tensor,axis)"]}
{"id": "C11", "title": "Multi-axis sum is the exact marginal for every axis set", "statement": "sum(t,axes) for any list of in-range axes yields, at each index over the remaining dimensions, the sum of exactly the elements that agree with it on those dimensions, and repeated axes count once; an out-of-range axis throws.", "quantifier": "every tensor, every axis list, including the list of all axes", "why_tests_cant": "The domain is infinite (every rank, size and element value); a test fixes a handful of literals.", "anchors": ["smart_dnn/Tensor/AdvancedTensorOperations.hpp: sum(tensor,axes), incrementIndices"]}
{"id": "C12", "title": "mean over axes is the average with kept dimensions", "statement": "mean(t) is total/count. mean(t,axes), for distinct in-range axes that are neither empty nor all axes, has t's shape with those dimensions set to 1 and at each index the average of exactly the elements agreeing with it off the axes. An out-of-range axis throws std::invalid_argument whenever the list is non-empty and its length differs from the rank; an empty list or one as long as the rank yields the total mean without looking at the axes.", "quantifier": "every tensor, every axis list", "why_tests_cant": "The domain is infinite (every rank, size and element value); a test fixes a handful of literals.", "anchors": ["smart_dnn/Tensor/AdvancedTensorOperations.hpp: mean"]}
{"id": "C13", "title": "variance over axes is the mean squared deviation, is non-negative, and never reads out of range", "statement": "variance(t,m,axes), for distinct in-range axes that leave at least one dimension and m of the kept-dimension mean shape, has m's shape and holds at each index the average of (t - m)^2 over exactly the elements agreeing with it off the axes; it is non-negative, and it is zero exactly when all those elements equal the mean. Out-of-range axes throw std::runtime_error; axes covering every dimension throw std::invalid_argument.", "quantifier": "every tensor, every mean tensor, every axis list", "why_tests_cant": "The domain is infinite (every rank, size and element value); a test fixes a handful of literals.", "anchors": ["smart_dnn/Tensor/AdvancedTensorOperations.hpp: variance"]}
{"id": "C14", "title": "transpose swaps two axes and is an involution", "statement": "transpose(t,i,j) throws std::invalid_argument exactly when i or j is out of range; otherwise dimension i and j are exchanged and the element at index x of the result is the element of t at x with coordinates i and j exchanged. Transposing twice gives back t; transpose(t,i,i) is t; the order of i and j is irrelevant.", "quantifier": "every tensor of any rank, every pair of axes", "why_tests_cant": "The domain is infinite (every rank, size and element value); a test fixes a handful of literals.", "anchors": ["smart_dnn/Tensor/AdvancedTensorOperations.hpp: transpose"]}
{"id": "C15", "title": "2-D matmul is the matrix product", "statement": "For an m x k and a k x n tensor, matmul yields the m x n tensor whose (i,j) element is the sum over p of a(i,p)*b(p,j); it throws std::invalid_argument exactly when the inner dimensions differ, and reads and writes only inside the buffers. In exact arithmetic the product is associative, distributes over +, has identity(n) as unit, and transpose(a b) = transpose(b) transpose(a).", "quantifier": "all matrix sizes and element values", "why_tests_cant": "The domain is infinite (every rank, size and element value); a test fixes a handful of literals.", "anchors": ["smart_dnn/Tensor/AdvancedTensorOperations.hpp: matmul, matrixMatrixMul", "smart_dnn/Tensor/TensorOperations.hpp: createIdentity"]}
{"id": "C16", "title": "matmul dispatches consistently over all rank combinations", "statement": "vector.vector is the dot product (shape (1)); vector.matrix, matrix.vector, 3-D.2-D, 2-D.3-D and N-D.N-D with equal batch dimensions are, batch by batch, the 2-D product; every other rank combination and every inner-dimension mismatch throws std::invalid_argument.", "quantifier": "all rank pairs, all sizes", "why_tests_cant": "The domain is infinite (every rank, size and element value); a test fixes a handful of literals.", "anchors": ["smart_dnn/Tensor/AdvancedTensorOperations.hpp: matmul, dotProduct, matrixVectorMul, matmul3D2D, matmul2D3D, batchedMatmul"]}
{"id": "C17", "title": "Batched matmul broadcasts batch dimensions of size 1", "statement": "For N-D x N-D operands (N>=3) whose batch dimensions broadcast, matmul uses the result batch shape max(a_i,b_i) and repeats the operand along its 1-sized batch dimensions.", "quantifier": "all batch shapes that broadcast", "why_tests_cant": "The result shape computation suggests support; only a quantified statement over unequal batch shapes shows the failure.", "anchors": ["smart_dnn/Tensor/AdvancedTensorOperations.hpp: batchedMatmul"]}
{"id": "C18", "title": "A broadcast view enumerates the broadcast tensor exactly once in row-major order", "statement": "Iterating a view of t with target shape s from begin() to end() terminates after exactly the number of elements of s, yields at step k the element of t at the projection of the k-th row-major index of s, and never reads outside t; dereferencing end throws std::out_of_range. Construction throws unless t's shape can be stretched to s.", "quantifier": "every tensor and target shape (below 2^31 elements)", "why_tests_cant": "The domain is infinite (every rank, size and element value); a test fixes a handful of literals.", "anchors": ["smart_dnn/Tensor/BroadcastView.hpp: BroadcastView, mapIndex, Iterator"]}
{"id": "C19", "title": "A slice view exposes exactly the half-open strided window", "statement": "SliceView(t, [(start,end)], steps) exposes, in every dimension, exactly the positions start, start+step, ... below end; reads and writes through it touch exactly those elements of t.", "quantifier": "every tensor, every list of (start,end) pairs and positive steps", "why_tests_cant": "The domain is infinite (every rank, size and element value); a test fixes a handful of literals.", "anchors": ["smart_dnn/Tensor/SliceView.hpp: SliceView, calculateSlicedShape, mapIndex, set"]}
{"id": "C20", "title": "Tensor::slice extracts the sub-tensor at a fixed coordinate", "statement": "slice(dim,index) of a tensor of rank >= 2 returns the tensor with dimension dim removed whose element at x is the original element at x with index inserted at position dim, for every valid dim and index, reading only inside the buffer.", "quantifier": "every tensor, dim < rank, 0 <= index < dimension", "why_tests_cant": "The domain is infinite (every rank, size and element value); a test fixes a handful of literals.", "anchors": ["smart_dnn/Tensor/Tensor.impl.hpp: slice"]}
{"id": "C21", "title": "Tensors have value semantics under every history of copies, moves, assignments and writes", "statement": "After any sequence of constructions, copies, copy-assignments, move-constructions and element writes on a set of tensor variables, each variable observes exactly the value that a purely functional store would give it: a write to one variable is never visible through another, self-assignment is a no-op, and a moved-from tensor is the one-element zero tensor of shape (1).", "quantifier": "every finite sequence of operations over any number of variables", "why_tests_cant": "Aliasing bugs depend on the history of operations; there are infinitely many histories.", "anchors": ["smart_dnn/Tensor/TensorDataCPU.impl.hpp: copy constructor, operator=", "smart_dnn/Tensor/Tensor.impl.hpp: Tensor(Tensor&&), operator=", "smart_dnn/Tensor/TensorData.hpp: operator=(TensorData&&)"]}
{"id": "C22", "title": "Tensor and shape comparison decide equality", "statement": "Two tensors compare == exactly when their dimension lists are equal and their elements are pairwise equal; != is the negation; the printed form of a shape determines the shape.", "quantifier": "all pairs of tensors / shapes", "why_tests_cant": "The domain is infinite (every rank, size and element value); a test fixes a handful of literals.", "anchors": ["smart_dnn/Tensor/TensorDataCPU.impl.hpp: operator==", "smart_dnn/Shape/Shape.hpp: operator==, operator<<, toString"]}
{"id": "C23", "title": "Factories build exactly the advertised tensors", "statement": "zeros/ones(shape) hold 0/1 everywhere; identity(n) is n x n with 1 exactly on the diagonal; a (shape, values) constructor stores the values in order; zeros(n)/ones(n)/identity(n) with n <= 0 throw std::invalid_argument.", "quantifier": "all shapes, all n", "why_tests_cant": "The domain is infinite (every rank, size and element value); a test fixes a handful of literals.", "anchors": ["smart_dnn/Tensor/TensorFactory.hpp", "smart_dnn/Tensor/TensorOperations.hpp: createFill, createIdentity", "smart_dnn/Tensor/TensorDataCPU.impl.hpp: TensorData(Shape, initializer_list)"]}
{"id": "C24", "title": "Random tensors stay in range and are reproducible from the seed", "statement": "rand(shape) has all elements in [0,1] and randn(shape,min,max) with min<=max in [min,max]; after setSeed(s), the sequence of all subsequently generated tensors is a function of s and the request sequence only, and each element consumes one draw.", "quantifier": "every seed, every request sequence, every underlying generator", "why_tests_cant": "Ranges over all generator states and histories.", "anchors": ["smart_dnn/RandomEngine.hpp", "smart_dnn/Tensor/TensorOperations.hpp: createRandom", "smart_dnn/Tensor/TensorFactory.hpp: rand, randn"]}
{"id": "C25", "title": "ReLU and LeakyReLU compute their definitions and matching derivatives", "statement": "ReLU forward is max(0,x) and LeakyReLU forward is x for x>0 and alpha*x otherwise, element-wise and shape preserving; backward multiplies the incoming gradient by the derivative of forward at every x != 0, and at x = 0 by the value documented in the header (derivative 1 if x > 0, otherwise 0 resp. alpha).", "quantifier": "every input tensor and gradient", "why_tests_cant": "The domain is infinite (every rank, size and element value); a test fixes a handful of literals.", "anchors": ["smart_dnn/Activations/ReLU.hpp", "smart_dnn/Activations/LeakyReLU.hpp"]}
{"id": "C26", "title": "Smooth activations' backward is the exact derivative of forward", "statement": "For Sigmoid, Tanh, Swish and Mish over the reals, backward(x,g) is g times the derivative of the function that forward applies, at every x; Sigmoid output lies in (0,1), Tanh output in (-1,1), and both are strictly increasing.", "quantifier": "every real input and gradient", "why_tests_cant": "Equality with a derivative at every real point is a limit statement; finite differences only approximate it at sample points.", "anchors": ["smart_dnn/Activations/Sigmoid.hpp", "smart_dnn/Activations/Tanh.hpp", "smart_dnn/Activations/Swish.hpp", "smart_dnn/Activations/Mish.hpp"]}
{"id": "C27", "title": "Softmax maps every batch row to a probability distribution", "statement": "For an input of rank >= 2, softmax keeps the shape; within each batch entry all outputs are positive and sum to 1, their order follows the inputs, adding a constant to a batch entry changes nothing, the exponent is never positive (no overflow) and the divisor is at least 1. Rank 1 throws std::invalid_argument.", "quantifier": "every input tensor", "why_tests_cant": "The domain is infinite (every rank, size and element value); a test fixes a handful of literals.", "anchors": ["smart_dnn/Activations/Softmax.hpp: forward"]}
{"id": "C28", "title": "Softmax backward is the exact vector-Jacobian product", "statement": "backward(x,g) equals, for each batch entry and coordinate i, the derivative along x_i of sum_j g_j * softmax(x)_j; the gradient entries of a batch entry sum to 0.", "quantifier": "every input tensor and gradient of the same shape", "why_tests_cant": "A derivative identity over all real vectors of all lengths.", "anchors": ["smart_dnn/Activations/Softmax.hpp: backward"]}
{"id": "C29", "title": "MSE loss is a faithful distance with the exact gradient", "statement": "For equal shapes (or a rank-1 target whose length equals the batch size and element count of the prediction) compute is the mean squared difference: non-negative, zero exactly when prediction equals target, symmetric; gradient is its exact derivative in the prediction. Other shape pairs throw.", "quantifier": "all prediction/target pairs", "why_tests_cant": "The domain is infinite (every rank, size and element value); a test fixes a handful of literals.", "anchors": ["smart_dnn/Loss/MSELoss.hpp"]}
{"id": "C30", "title": "Cross-entropy loss is finite, non-negative and averaged over the batch", "statement": "compute(p,t) for 2-D p,t of equal shape is -(1/B) sum t*log(clamp(p)) with clamp to [eps,1-eps]; with non-negative targets it is non-negative and at most -log(eps) times the mean target mass, for any prediction values; shape mismatch throws std::invalid_argument, rank >= 3 throws.", "quantifier": "all prediction/target pairs", "why_tests_cant": "The domain is infinite (every rank, size and element value); a test fixes a handful of literals.", "anchors": ["smart_dnn/Loss/CategoricalCrossEntropyLoss.hpp: compute"]}
{"id": "C31", "title": "Cross-entropy gradient is the derivative of the loss that compute reports", "statement": "gradient(p,t) is the derivative of compute(p,t) with respect to p, so that feeding it to the preceding layer's backward follows the chain rule.", "quantifier": "all prediction/target pairs with p strictly inside the clamp range", "why_tests_cant": "A derivative identity over all reals.", "anchors": ["smart_dnn/Loss/CategoricalCrossEntropyLoss.hpp: gradient", "smart_dnn/Activations/Softmax.hpp: backward"]}
{"id": "C32", "title": "SGD follows its recurrence for every history", "statement": "For any sequence of optimize calls on a tensor, each element evolves by g' = g + wd*w; v = momentum*v + (1-dampening)*g'; step = g' (momentum 0), v (plain) or g'+momentum*v (Nesterov); w = w - lr*step, with v starting at 0. Without momentum and decay this is w - lr*g; with momentum the weight after n steps is w0 minus lr times the double geometric sum of gradients.", "quantifier": "every history of gradients, every hyper-parameter setting", "why_tests_cant": "Momentum depends on the whole history; tests run one or two steps.", "anchors": ["smart_dnn/Optimizers/SGDOptimizer.hpp"]}
{"id": "C33", "title": "RMSProp keeps a valid variance estimate and a bounded step for every history", "statement": "For 0<=alpha<=1 and eps>0, over every gradient history the running square average is non-negative and at least the square of the running mean, so every square root argument is positive; in plain mode (not centered) with no momentum each element moves by at most lr/sqrt(1-alpha) per step.", "quantifier": "every history of gradients", "why_tests_cant": "The domain is infinite (every rank, history and element value); a test fixes a handful of literals.", "anchors": ["smart_dnn/Optimizers/RMSPropOptimizer.hpp"]}
{"id": "C34", "title": "Adam applies the published bias-corrected update", "statement": "After t optimize calls the weight moves by lr*mHat/(sqrt(vHat)+eps) with mHat = m/(1-beta1^t), vHat = v/(1-beta2^t) (plus the configured L1/L2 terms), m and v being the exponential averages of the gradients seen by this tensor.", "quantifier": "every gradient history, every hyper-parameter setting", "why_tests_cant": "History dependent and involves t-dependent factors.", "anchors": ["smart_dnn/Optimizers/AdamOptimizer.hpp"]}
{"id": "C35", "title": "Optimizer state never leaks between parameters", "statement": "For SGD, RMSProp and Adam, the trajectory of a parameter tensor under any interleaving of optimize calls on several distinct tensors depends only on the sub-sequence of calls that contained it (for Adam: and on the number of calls made so far); no other tensor is modified.", "quantifier": "every interleaving of calls over any number of tensors", "why_tests_cant": "Histories and interleavings are unbounded.", "anchors": ["smart_dnn/Optimizers/SGDOptimizer.hpp: momentumBuffers", "smart_dnn/Optimizers/RMSPropOptimizer.hpp: squaredGrads", "smart_dnn/Optimizers/AdamOptimizer.hpp: m, v"]}
{"id": "C36", "title": "Learning-rate override and argument-count contract", "statement": "A positive override is used for exactly that call; a non-positive override selects the configured rate (for Adam: decayed by 1/(1+decay*calls) when decay>0). If the number of weights and gradients differ, std::invalid_argument is thrown and nothing (weights, optimizer state, call counter) changes.", "quantifier": "every optimizer state, every call", "why_tests_cant": "The domain is infinite (every rank, size and element value); a test fixes a handful of literals.", "anchors": ["smart_dnn/Optimizers/SGDOptimizer.hpp: optimize", "smart_dnn/Optimizers/RMSPropOptimizer.hpp: optimize", "smart_dnn/Optimizers/AdamOptimizer.hpp: optimize, updateLearningRate"]}
{"id": "C37", "title": "Fully connected forward is the affine map", "statement": "forward(x) is x W + b for a 2-D batch and for a 1-D sample (returning the matching rank); a wrong feature count throws; the layer's parameters are not changed.", "quantifier": "all sizes, weights, biases, inputs", "why_tests_cant": "The domain is infinite (every rank, size and element value); a test fixes a handful of literals.", "anchors": ["smart_dnn/Layers/FullyConnectedLayer.hpp: forward"]}
{"id": "C38", "title": "Fully connected backward returns the exact gradients", "statement": "After forward(x), backward(g) stores weight and bias gradients and returns an input gradient that are exactly the adjoints of the affine map: for every perturbation dW, db, dx the first-order change of <g, output> equals <gradW,dW>, <gradb,db>, <gradx,dx>; the returned gradient has the shape of the forward input.", "quantifier": "all sizes and values; 1-D and 2-D inputs", "why_tests_cant": "The domain is infinite (every rank, size and element value); a test fixes a handful of literals.", "anchors": ["smart_dnn/Layers/FullyConnectedLayer.hpp: backward"]}
{"id": "C39", "title": "Flatten and un-flatten are inverse", "statement": "forward keeps the batch dimension and the flat element order; backward(forward(x)) has the shape and elements of x; rank 1 throws. Holds for every input the layer accepts and whatever inputs it saw before.", "quantifier": "every input of rank >= 2, every earlier history of the layer", "why_tests_cant": "History dependence: the layer caches a shape.", "anchors": ["smart_dnn/Layers/FlattenLayer.hpp"]}
{"id": "C40", "title": "Max pooling outputs the window maximum", "statement": "For rank-4 input, output size is floor((in-pool)/stride)+1 per spatial axis and each output element is the maximum over its pool window (attained by an element of the window); other ranks throw.", "quantifier": "every input, pool size and stride, element types with an infinity (float, double)", "why_tests_cant": "The domain is infinite (every rank, size and element value); a test fixes a handful of literals.", "anchors": ["smart_dnn/Regularisation/MaxPooling2DLayer.hpp: forward, findMaxInPoolWindow"]}
{"id": "C41", "title": "Max pooling backward routes each gradient to the window's first maximum and conserves mass", "statement": "backward(g) returns a tensor of the input shape in which each position receives the sum of the gradients of exactly the windows whose first row-major maximum it is; the total gradient is conserved.", "quantifier": "every input without minus infinity, every gradient, pool size, stride", "why_tests_cant": "The domain is infinite (every rank, size and element value); a test fixes a handful of literals.", "anchors": ["smart_dnn/Regularisation/MaxPooling2DLayer.hpp: backward"]}
{"id": "C42", "title": "Max pooling honours padding", "statement": "With padding p>0 the layer pools the input padded by p on each side.", "quantifier": "every input, pool size, stride, p>0", "why_tests_cant": "The domain is infinite (every rank, size and element value); a test fixes a handful of literals.", "anchors": ["smart_dnn/Regularisation/MaxPooling2DLayer.hpp: padding"]}
{"id": "C43", "title": "Conv2D forward is the configured cross-correlation", "statement": "For any input channel count, stride, padding and dilation the output is the cross-correlation of the input with the kernels, summed over all input channels, plus bias.", "quantifier": "all layer configurations and inputs", "why_tests_cant": "The domain is infinite (every rank, size and element value); a test fixes a handful of literals.", "anchors": ["smart_dnn/Layers/Conv2DLayer.hpp: forward"]}
{"id": "C44", "title": "Conv2D backward returns the exact gradients", "statement": "backward(g) stores kernel and bias gradients and returns an input gradient that are the adjoints of forward, for every batch size and channel count.", "quantifier": "all layer configurations, inputs, gradients", "why_tests_cant": "The domain is infinite (every rank, size and element value); a test fixes a handful of literals.", "anchors": ["smart_dnn/Layers/Conv2DLayer.hpp: backward"]}
{"id": "C45", "title": "Batch normalisation normalises each feature during training", "statement": "In training mode, for rank 2 and rank 4 inputs, each feature (channel) of the output has mean beta and variance gamma^2*var/(var+eps) over the reduced axes; other ranks throw.", "quantifier": "every input batch", "why_tests_cant": "The domain is infinite (every rank, size and element value); a test fixes a handful of literals.", "anchors": ["smart_dnn/Regularisation/BatchNormalizationLayer.hpp: forward"]}
{"id": "C46", "title": "Batch normalisation can be evaluated after any training history", "statement": "After any sequence of training-mode forward calls, switching to evaluation mode and calling forward on an input of the same kind succeeds and applies the affine map given by the running statistics, which are the exponential averages of the batch statistics, without changing them.", "quantifier": "every training history of rank-2 or rank-4 batches", "why_tests_cant": "Quantifies over histories of calls.", "anchors": ["smart_dnn/Regularisation/BatchNormalizationLayer.hpp: forward, runningMean, reshapeForBroadcast"]}
{"id": "C47", "title": "Batch normalisation backward is memory safe and returns the exact gradients", "statement": "After a training forward, backward(g) performs only in-range accesses and returns the derivative of forward.", "quantifier": "every input batch and gradient", "why_tests_cant": "The out-of-range read happens to return a plausible value in common builds, so tests pass.", "anchors": ["smart_dnn/Regularisation/BatchNormalizationLayer.hpp: backward, reshapeForBroadcast"]}
{"id": "C48", "title": "Dropout is the identity in evaluation mode and masks-and-rescales in training mode", "statement": "In evaluation mode forward returns its input unchanged and consumes no randomness; in training mode each output element is either 0 or x/(1-rate), decided element by element by one random draw.", "quantifier": "every input, rate < 1, random stream", "why_tests_cant": "The domain is infinite (every rank, size and element value); a test fixes a handful of literals.", "anchors": ["smart_dnn/Regularisation/DropoutLayer.hpp: forward"]}
{"id": "C49", "title": "Dropout drops the configured fraction", "statement": "In training mode each element is kept with probability 1-rate; in particular rate 0 keeps everything, and the mean of every element of the answer is the element of the input.", "quantifier": "every rate, every random stream", "why_tests_cant": "A distributional statement; a single test asserts only that something was dropped.", "anchors": ["smart_dnn/Regularisation/DropoutLayer.hpp: forward", "smart_dnn/RandomEngine.hpp: getHeRandRange"]}
{"id": "C50", "title": "Dropout backward is the derivative of forward", "statement": "In training mode, backward(g) after forward(x) is the derivative of that forward (same mask, same rescaling); in evaluation mode it is g.", "quantifier": "every input, gradient, random stream", "why_tests_cant": "The domain is infinite (every rank, size and element value); a test fixes a handful of literals.", "anchors": ["smart_dnn/Regularisation/DropoutLayer.hpp: backward"]}
{"id": "C51", "title": "Calling backward before forward is rejected", "statement": "For every layer, backward on a freshly constructed layer throws an exception.", "quantifier": "every layer kind, every gradient", "why_tests_cant": "Undefined behaviour may look like success in a test run.", "anchors": ["smart_dnn/Layers/ActivationLayer.hpp: backward", "smart_dnn/Layers/Conv2DLayer.hpp: backward", "smart_dnn/Layers/FlattenLayer.hpp: backward", "smart_dnn/Layers/FullyConnectedLayer.hpp: backward", "smart_dnn/Regularisation/BatchNormalizationLayer.hpp: backward", "smart_dnn/Regularisation/DropoutLayer.hpp: backward", "smart_dnn/Regularisation/MaxPooling2DLayer.hpp: backward"]}
{"id": "C52", "title": "predict composes the layers in insertion order", "statement": "predict(x) is the output of the last layer applied to the ... of the first layer's output on x (identity for an empty model), the first exception aborts it; predict(list) is element-wise predict in order.", "quantifier": "every stack of layers, every input (list)", "why_tests_cant": "The domain is infinite (every rank, size and element value); a test fixes a handful of literals.", "anchors": ["smart_dnn/SmartDNN/SmartDNN.impl.hpp: predict"]}
{"id": "C53", "title": "Prediction in evaluation mode is a pure function", "statement": "After evalMode(), any number of predict calls leaves all parameters, running statistics, the optimizer and the random engine unchanged and repeated predict calls on the same input return the same result, whatever was predicted in between; trainingMode()/evalMode() set every layer.", "quantifier": "every model, every history of predict calls", "why_tests_cant": "Quantifies over histories.", "anchors": ["smart_dnn/SmartDNN/SmartDNN.impl.hpp: predict, evalMode, setTrainingMode"]}
{"id": "C54", "title": "Model backward visits layers in reverse and chains gradients", "statement": "backward(g) feeds g to the last layer and each layer's result to the one before, each layer exactly once; for stacks of fully connected and smooth activation layers the gradient reaching the input is the exact adjoint of the linearised network, and the gradients stored by a fully connected layer or a convolution (one channel, one image) are the gradients of the loss with respect to its parameters.", "quantifier": "every stack of layers", "why_tests_cant": "The domain is infinite (every rank, size and element value); a test fixes a handful of literals.", "anchors": ["smart_dnn/SmartDNN/SmartDNN.impl.hpp: backward"]}
{"id": "C55", "title": "train performs exactly epochs x samples updates in order", "statement": "train(inputs,targets,epochs) performs, for each epoch and each sample in order, forward, loss gradient, backward and one update, and nothing else; epochs <= 0 changes nothing; an empty data set with epochs >= 1 throws std::invalid_argument; n epochs then m epochs equals n+m epochs; calls of train that go through the same samples in the same order end with the same model, however the samples are distributed over calls and epochs; a new compile replaces loss and optimizer, and nothing of the earlier ones is seen in later training; the reported loss is the mean of the per-sample losses computed before each update.", "quantifier": "every model, data set, epoch count", "why_tests_cant": "Quantifies over all training histories.", "anchors": ["smart_dnn/SmartDNN/SmartDNN.impl.hpp: train, updateWeights"]}
{"id": "C56", "title": "Updating weights changes parameters only", "statement": "updateWeights changes only the trainable tensors of fully connected, convolution and batch-norm layers, keeps their shapes, and throws if a trainable layer has no gradients yet.", "quantifier": "every model state", "why_tests_cant": "The domain is infinite (every rank, size and element value); a test fixes a handful of literals.", "anchors": ["smart_dnn/Layers/FullyConnectedLayer.hpp: updateWeights", "smart_dnn/Layers/Conv2DLayer.hpp: updateWeights", "smart_dnn/Regularisation/BatchNormalizationLayer.hpp: updateWeights"]}
{"id": "C57", "title": "MNIST images decode exactly", "statement": "For an IDX image file with n images of r x c, loadData returns ceil(n/b) tensors, all of shape (b,1,r,c) except a last one with the remainder; concatenated in order they contain pixel/255 of every byte in file order, all in [0,1]. A wrong magic number throws std::runtime_error; a positive sample limit selects the first images.", "quantifier": "every byte content, every n, r, c, batch size >= 1", "why_tests_cant": "The domain is infinite (every rank, size and element value); a test fixes a handful of literals.", "anchors": ["smart_dnn/Datasets/MNistLoader.hpp: loadImages, readInt"]}
{"id": "C58", "title": "MNIST labels decode to one-hot rows aligned with the images", "statement": "For an IDX label file with labels 0..9, loadData returns batches of the same sizes as the image batches whose rows are 1 at the label and 0 elsewhere, in file order; a label byte > 9 throws std::out_of_range; wrong magic throws std::runtime_error.", "quantifier": "every label sequence, every batch size", "why_tests_cant": "The domain is infinite (every rank, size and element value); a test fixes a handful of literals.", "anchors": ["smart_dnn/Datasets/MNistLoader.hpp: loadLabels"]}
{"id": "C59", "title": "Truncated MNIST files are rejected", "statement": "If the file has fewer data bytes than its header announces (or the sample limit requests), loading throws.", "quantifier": "every truncation point", "why_tests_cant": "Every prefix of every file is a crash point.", "anchors": ["smart_dnn/Datasets/MNistLoader.hpp: loadImages, loadLabels"]}
{"id": "C60", "title": "Synthetic linear datasets have the requested size and relation", "statement": "generateLinearDataset(n) returns n samples of shape (1); generateBatchedLinearDataset(n,b) with b>=1 returns ceil(n/b) batches whose sizes are b except a last remainder and sum to n; every target is 2x+3+noise of its own draw.", "quantifier": "every n, b, random stream", "why_tests_cant": "The domain is infinite (every rank, size and element value); a test fixes a handful of literals.", "anchors": ["smart_dnn/Datasets/SampleGenerator.hpp"]}
{"id": "C61", "title": "Parallel loops are schedule independent", "statement": "With OpenMP enabled, the result of matmul (2-D x 2-D, 2-D x 1-D), applyPair, matrixMatrixMulSlice, im2col, col2im and the Adam parameter update is the same for every assignment of iterations to threads and every interleaving.", "quantifier": "every schedule / interleaving of the loop iterations", "why_tests_cant": "The number of interleavings is astronomically large and races are rarely observed.", "anchors": ["smart_dnn/Tensor/AdvancedTensorOperations.hpp: matrixMatrixMul, matrixVectorMul, applyPair", "smart_dnn/Optimizers/AdamOptimizer.hpp: updateTensor", "smart_dnn/Tensor/AdvancedTensorOperations.hpp: matrixMatrixMulSlice", "smart_dnn/Layers/Conv2DLayer.hpp: im2col, col2im"]}
{"id": "C62", "title": "Parallel transpose is schedule independent", "statement": "With OpenMP enabled, transpose gives the same result for every interleaving of its loop iterations.", "quantifier": "every schedule / interleaving", "why_tests_cant": "Races are rarely observed in tests.", "anchors": ["smart_dnn/Tensor/AdvancedTensorOperations.hpp: transpose"]}
{"id": "C63", "title": "ASCII rendering stays inside its character ramp", "statement": "toAsciiArt of an image with a 28x28 leading plane and pixels in [0,1] produces 28 lines of 28 ramp characters, monotone in intensity, without indexing outside the ramp or the tensor.", "quantifier": "every image with values in [0,1]", "why_tests_cant": "The domain is infinite (every rank, size and element value); a test fixes a handful of literals.", "anchors": ["smart_dnn/Datasets/MNistLoader.hpp: toAsciiArt"]}
{"id": "C64", "title": "im2col and col2im are adjoint rearrangements", "statement": "im2col places input element (n,c,oh*stride+kh*dilation-padding, ow*stride+kw*dilation-padding) (0 if outside) at row (c,kh,kw), column (n,oh,ow); col2im is its transpose, so kernel-matrix times im2col is the padded, strided, dilated multi-channel convolution.", "quantifier": "all sizes, strides, paddings, dilations", "why_tests_cant": "The domain is infinite (every rank, size and element value); a test fixes a handful of literals.", "anchors": ["smart_dnn/Layers/Conv2DLayer.hpp: im2col, col2im"]}
{"id": "C65", "title": "A new parameter starts from fresh optimizer state", "statement": "A parameter tensor that is passed to an SGD or RMSProp optimizer for the first time evolves exactly as under a newly constructed optimizer, whatever tensors the optimizer has seen before (including tensors that no longer exist).", "quantifier": "every history of earlier calls, every address the new tensor may get", "why_tests_cant": "Whether an allocator reuses an address depends on the whole history of the process.", "anchors": ["smart_dnn/Optimizers/SGDOptimizer.hpp: updateTensor, momentumBuffers", "smart_dnn/Optimizers/RMSPropOptimizer.hpp: updateTensor"]}
{"id": "C66", "title": "Max pooling of integer tensors outputs the window maximum", "statement": "Also for element types without an infinity (int) each output element of the max-pooling layer is the maximum over its pool window.", "quantifier": "every integer input, in particular every all-negative window", "why_tests_cant": "The domain is infinite (every rank, size and element value); a test fixes a handful of literals.", "anchors": ["smart_dnn/Regularisation/MaxPooling2DLayer.hpp: findMaxInPoolWindow"]}
{"id": "C67", "title": "Training a well-shaped model never fails", "statement": "If each layer of a compiled model (dense, convolution, unpadded max pooling, flatten on rank >= 3, dropout in training mode, activations, softmax) accepts the dimensions the previous one returns and the loss accepts the last ones, then predict and train on data of these dimensions never throw or run into undefined behaviour, for any numbers, any optimizer and any number of epochs, and the model keeps its shapes.", "quantifier": "every model of these layers, all data, parameters, random streams, epoch counts, histories", "why_tests_cant": "Any one run exercises one sequence of numbers; the guarantee is about all of them and about every later call.", "anchors": ["smart_dnn/SmartDNN/SmartDNN.impl.hpp: train, predict", "smart_dnn/Layers/ActivationLayer.hpp", "smart_dnn/Layers/Conv2DLayer.hpp", "smart_dnn/Layers/FlattenLayer.hpp", "smart_dnn/Layers/FullyConnectedLayer.hpp", "smart_dnn/Optimizers/AdamOptimizer.hpp", "smart_dnn/Optimizers/RMSPropOptimizer.hpp", "smart_dnn/Optimizers/SGDOptimizer.hpp"]}
{"id": "C68", "title": "A training step with mean squared error and plain SGD is gradient descent", "statement": "One training step on (x,t) reports the mean squared error of the model's output and changes the weights and biases of every fully connected layer, and the kernels and biases of every convolution (one channel, one image), by -learningRate times the exact gradient of that error with respect to them.", "quantifier": "every stack of layers around the layer in question, all parameters, inputs, targets, learning rates", "why_tests_cant": "The domain is infinite (every rank, size and element value); a test fixes a handful of literals.", "anchors": ["smart_dnn/SmartDNN/SmartDNN.impl.hpp: train", "smart_dnn/Layers/FullyConnectedLayer.hpp: backward, updateWeights", "smart_dnn/Optimizers/SGDOptimizer.hpp: optimize", "smart_dnn/Loss/MSELoss.hpp: gradient"]}
{"id": "C69", "title": "Adam's step number is the number of training steps", "statement": "During training, the step number t in Adam's bias corrections is the number of the training step.", "quantifier": "every model, every training history", "why_tests_cant": "The counter is internal; its drift only shows in the long run.", "anchors": ["smart_dnn/Optimizers/AdamOptimizer.hpp: updateLearningRate", "smart_dnn/SmartDNN/SmartDNN.impl.hpp: updateWeights"]}
{"id": "C70", "title": "Random tensors are schedule independent", "statement": "With OpenMP enabled, the elements of a random tensor and the state the random engine is left in are the same for every assignment of iterations to threads and every interleaving, so that setSeed makes a program reproducible.", "quantifier": "every schedule / interleaving of the loop iterations, every seed", "why_tests_cant": "Races are rarely observed in tests.", "anchors": ["smart_dnn/Tensor/TensorOperations.hpp: createRandom", "smart_dnn/RandomEngine.hpp: getInstance, getHeRandRange"]}
{"id": "C71", "title": "A tensor that was moved from by assignment stays usable", "statement": "After b = std::move(a) the tensor a is still a valid tensor (as after a move construction): it can be read, copied, filled and assigned to.", "quantifier": "every history of operations, all shapes", "why_tests_cant": "A null buffer with a stale size only fails on the next use, whose effect is undefined.", "anchors": ["smart_dnn/Tensor/Tensor.hpp: operator=(Tensor&&)", "smart_dnn/Tensor/TensorData.hpp: operator=(TensorData&&)"]}
{"id": "C72", "title": "1-D samples train like one-row batches", "statement": "On samples and targets given as 1-D tensors, a model of fully connected and elementwise activation (or dropout) layers makes the same predictions, prints the same losses and learns the same parameters as on the batches that hold each sample as their only row; training on them never fails.", "quantifier": "every stack of such layers, all parameters, samples, optimizers, epoch counts", "why_tests_cant": "The layers turn a 1-D sample into a (1,n) batch behind the scenes at different places, so shapes disagree only in some combinations of layers.", "anchors": ["examples/SimpleLinearRegressionModel.cpp", "smart_dnn/Layers/FullyConnectedLayer.hpp: forward, backward", "smart_dnn/Activations/LeakyReLU.hpp: backward", "smart_dnn/Activations/Mish.hpp: backward", "smart_dnn/Activations/ReLU.hpp: backward", "smart_dnn/Activations/Sigmoid.hpp: backward", "smart_dnn/Activations/Softmax.hpp: backward", "smart_dnn/Activations/Swish.hpp: backward", "smart_dnn/Activations/Tanh.hpp: backward", "smart_dnn/Regularisation/DropoutLayer.hpp: backward"]}
{"id": "C73", "title": "The linear regression example runs to its end", "statement": "examples/SimpleLinearRegressionModel.cpp terminates normally whatever the random numbers are: it prints 100 losses of one element each and a prediction with one element.", "quantifier": "every random seed, every stream of samples, all Adam options, every input value", "why_tests_cant": "The program is random; a run shows one seed.", "anchors": ["examples/SimpleLinearRegressionModel.cpp: main", "smart_dnn/Datasets/SampleGenerator.hpp: generateLinearDataset", "smart_dnn/SmartDNN/SmartDNN.impl.hpp: train, predict"]}
{"id": "C74", "title": "Models with batch normalisation can be trained", "statement": "If the layers of a compiled model fit together (as in C67, with batch normalisation layers on (n,F) or (n,F,h,w) batches anywhere among them) and the loss accepts the output, then predict and train on data of these dimensions succeed; in particular examples/MNistModel.cpp trains on every pair of well-formed data files.", "quantifier": "every such model, all data, parameters, random streams, epoch counts; every pair of data files", "why_tests_cant": "The guarantee is about all models and data; undefined behaviour need not show in a run.", "anchors": ["examples/MNistModel.cpp: main", "smart_dnn/Regularisation/BatchNormalizationLayer.hpp: backward, reshapeForBroadcast", "smart_dnn/SmartDNN/SmartDNN.impl.hpp: train"]}
{"id": "C75", "title": "Products of slice views are products of the windows they show", "statement": "For two slice views of rank 2, matrixMatrixMulSlice returns (or throws) exactly what matmul does on tensors holding copies of the two windows; dotProductSlice of two views of one shape is the sum of the products of the elements they show, and views of different shapes or of the wrong rank are rejected.", "quantifier": "all tensors, all slices, all positive steps", "why_tests_cant": "The domain is infinite (every rank, size and element value); a test fixes a handful of literals.", "anchors": ["smart_dnn/Tensor/AdvancedTensorOperations.hpp: dotProductSlice, matrixMatrixMulSlice", "smart_dnn/Tensor/SliceView.hpp: SliceView, operator[], begin, end"]}
{"id": "C76", "title": "Training a linear model on a linear relation converges", "statement": "A model that is one fully connected layer, compiled with the mean squared error and plain SGD and trained on full batches whose targets are an affine function of the inputs, gets losses that tend to 0 from every starting parameter, as long as the learning rate is below (samples * outputs) / sum over the samples of (1 + |x|^2); every run prints a prefix of that sequence. For a single sample the k-th loss is exactly (1 - 2 lr (1+|x|^2)/m)^(2k) times the first, so above the threshold the losses tend to infinity.", "quantifier": "all sizes, all affine relations, all samples, all starting parameters, all learning rates below the threshold, all epoch counts", "why_tests_cant": "Convergence is a statement about all epoch counts and all data; a test sees finitely many steps.", "anchors": ["smart_dnn/SmartDNN/SmartDNN.impl.hpp: train, updateWeights", "smart_dnn/Layers/FullyConnectedLayer.hpp: forward, backward, updateWeights", "smart_dnn/Loss/MSELoss.hpp: compute, gradient", "smart_dnn/Optimizers/SGDOptimizer.hpp: updateTensor"]}
{"id": "C77", "title": "Floating-point results are close to the exact ones", "statement": "With a floating-point element type whose operations round to nearest (unit roundoff u, underflow error eta): whenever the result of sum, sum over an axis, mean, 2-D matmul, a fully connected or convolution layer, or a plain SGD step is finite, it differs from the exact value by at most the standard bound ((1+u)^k - 1) times the sum of the absolute values of the k terms involved, plus the underflow errors; different orders of summation agree up to these bounds, and sums of small integers are exact.", "quantifier": "all shapes, all finite or non-finite element values, every floating-point format", "why_tests_cant": "The domain is infinite (every rank, size and element value); a test fixes a handful of literals.", "anchors": ["smart_dnn/Tensor/AdvancedTensorOperations.hpp: sum, mean, matmul", "smart_dnn/Layers/FullyConnectedLayer.hpp: forward", "smart_dnn/Layers/Conv2DLayer.hpp: forward", "smart_dnn/Optimizers/SGDOptimizer.hpp: updateTensor"]}
{"id": "C78", "title": "A small enough learning rate lowers the loss", "statement": "For a model of fully connected, convolution (one channel, one image), max pooling, activation, softmax and flatten layers, compiled with the mean squared error and SGD without momentum and weight decay, and trained on one sample at which the model is differentiable: training succeeds for every learning rate, the gradients stored by the first step do not depend on it, and unless they all vanish there is a positive threshold such that for every learning rate below it the loss printed for the second epoch is smaller than the one printed for the first. The rate of change of the loss at learning rate 0 is minus the sum of the squares of all stored gradients.", "quantifier": "all such models of any depth and sizes, all parameters, samples and targets, all learning rates below the threshold", "why_tests_cant": "It combines the gradients of all layers with simultaneous updates of all parameters; a test sees one model and one rate.", "anchors": ["smart_dnn/SmartDNN/SmartDNN.impl.hpp: train, backward, updateWeights", "smart_dnn/Layers/ActivationLayer.hpp: forward, backward, updateWeights", "smart_dnn/Layers/Conv2DLayer.hpp: forward, backward, updateWeights", "smart_dnn/Layers/FlattenLayer.hpp: forward, backward, updateWeights", "smart_dnn/Layers/FullyConnectedLayer.hpp: forward, backward, updateWeights", "smart_dnn/Loss/MSELoss.hpp: compute, gradient", "smart_dnn/Optimizers/SGDOptimizer.hpp: optimize"]}
{"id": "C79", "title": "Printed tensors show their elements in order", "statement": "toDataString lists all elements of a tensor in row-major order, separated by ', ' in brackets; toDetailedString prints the type name, the shape and the first ten elements, and '...' exactly if there are more; from the output one can read back the formatted elements (and the shape, for toDetailedString). A successful train call prints one line 'Epoch k - Loss: [v]' per epoch, numbered from 0.", "quantifier": "all shapes and element values, every element formatter that writes no comma or bracket, all training runs", "why_tests_cant": "The domain is infinite (every rank, size and element value); a test fixes a handful of literals.", "anchors": ["smart_dnn/Tensor/TensorDataCPU.impl.hpp: toString, toDataString", "smart_dnn/Tensor/Tensor.impl.hpp: toDetailedString, toDataString", "smart_dnn/SmartDNN/SmartDNN.impl.hpp: train", "smart_dnn/Debugging/Logger.hpp: log"]}
{"id": "C80", "title": "Training a softmax classifier with a small enough learning rate lowers its cross entropy", "statement": "A model that is a fully connected layer followed by softmax, compiled with the categorical cross entropy and SGD without momentum and weight decay: training it on a batch with one-hot targets, unless it already predicts them, prints a smaller loss for the second epoch than for the first, for every learning rate below some positive threshold.", "quantifier": "all sizes, parameters, inputs and one-hot targets with predictions inside the clamped range, all small learning rates", "why_tests_cant": "Needs the derivative of the loss along the step training really takes; runs on benign data do descend.", "anchors": ["smart_dnn/Loss/CategoricalCrossEntropyLoss.hpp: compute, gradient", "smart_dnn/Activations/Softmax.hpp: forward, backward", "smart_dnn/Layers/FullyConnectedLayer.hpp: backward, updateWeights", "smart_dnn/SmartDNN/SmartDNN.impl.hpp: train"]}
{"id": "C81", "title": "Activations never turn numbers into NaN", "statement": "With a floating-point element type with infinities and NaN: if all inputs are finite, the outputs of every activation are finite (LeakyReLU: for slopes up to 1), however large the inputs are; sigmoid and softmax stay between 0 and 1. Gradients propagated back through an activation are never NaN if inputs and gradients are finite.", "quantifier": "all shapes, all finite inputs, every binary floating-point format and every C library meeting the stated guarantees", "why_tests_cant": "The domain is infinite (every rank, size and element value); a test fixes a handful of literals.", "anchors": ["smart_dnn/Activations/LeakyReLU.hpp: forward, backward", "smart_dnn/Activations/Mish.hpp: forward, backward", "smart_dnn/Activations/ReLU.hpp: forward, backward", "smart_dnn/Activations/Sigmoid.hpp: forward, backward", "smart_dnn/Activations/Softmax.hpp: forward, backward", "smart_dnn/Activations/Swish.hpp: forward, backward", "smart_dnn/Activations/Tanh.hpp: forward, backward"]}
{"id": "C82", "title": "A NaN in the data shows in the results", "statement": "With a floating-point element type with infinities and NaN: sums, differences, products and matrix products are NaN wherever they depend on a NaN; so are the outputs of activations, layers and models, losses and their gradients, and parameters updated with a NaN gradient. Training a model on data with a NaN anywhere prints NaN for every epoch and leaves NaN parameters - all of them if the NaN is in an input - and a model with a NaN parameter never recovers by further training. So a user who sees finite losses knows that no NaN was in the data.", "quantifier": "all shapes, all positions of the NaN, all models of the stated layers of any depth and sizes, all losses, optimizers with any options, all epoch counts", "why_tests_cant": "A test places a NaN in a few positions of one model; the claim is about all dataflow paths.", "anchors": ["smart_dnn/Tensor/TensorOperations.hpp: apply", "smart_dnn/Tensor/AdvancedTensorOperations.hpp: matmul, sum", "smart_dnn/Activations/LeakyReLU.hpp: forward, backward", "smart_dnn/Activations/Mish.hpp: forward, backward", "smart_dnn/Activations/ReLU.hpp: forward, backward", "smart_dnn/Activations/Sigmoid.hpp: forward, backward", "smart_dnn/Activations/Softmax.hpp: forward, backward", "smart_dnn/Activations/Swish.hpp: forward, backward", "smart_dnn/Activations/Tanh.hpp: forward, backward", "smart_dnn/Layers/FullyConnectedLayer.hpp: forward, backward, updateWeights", "smart_dnn/Regularisation/MaxPooling2DLayer.hpp: forward", "smart_dnn/Loss/CategoricalCrossEntropyLoss.hpp: compute, gradient", "smart_dnn/Loss/MSELoss.hpp: compute, gradient", "smart_dnn/Optimizers/AdamOptimizer.hpp: optimize", "smart_dnn/Optimizers/RMSPropOptimizer.hpp: optimize", "smart_dnn/Optimizers/SGDOptimizer.hpp: optimize", "smart_dnn/SmartDNN/SmartDNN.impl.hpp: train, predict"]}
{"id": "C83", "title": "Replaced parameters are the ones used, and copying them copies the model", "statement": "After setWeights and setBiases a fully connected or convolution layer computes with exactly these parameters, whatever it was used for before; parameters that do not fit are rejected; the gradient setters and getters agree and an update never reads outside of them. Copying the weights and biases of all layers of a model into a model built the same way makes both predict the same in evaluation mode, for every input. getLayer(i) is the i-th layer added.", "quantifier": "all layer states, parameters and inputs; all pairs of models of the same build and any histories", "why_tests_cant": "A test copies one trained model; hidden state left behind by other histories is not seen.", "anchors": ["smart_dnn/Layers/FullyConnectedLayer.hpp: setWeights, setBiases, setWeightGradient, setBiasGradient, getWeightGradients", "smart_dnn/Layers/Conv2DLayer.hpp: setWeights, setBiases", "smart_dnn/Regularisation/BatchNormalizationLayer.hpp", "smart_dnn/SmartDNN/SmartDNN.impl.hpp: getLayer, predict"]}
{"id": "C84", "title": "A prediction does not depend on the rest of the batch", "statement": "In evaluation mode the prediction for an entry of a batch is the same, bit for bit, whatever the other entries are, wherever the entry stands and however many there are: predicting a selection of the entries in any order returns the selected entries of the prediction of the whole batch, predicting an entry alone returns its entry, and predict on the list of entries returns the list of entries.", "quantifier": "all models whose layer sizes fit, all parameters and histories, all batch sizes, all inputs, every number type", "why_tests_cant": "Tests compare a few batches; a result that leaks between rows only shows for particular companions, and rounding differences need every value.", "anchors": ["smart_dnn/SmartDNN/SmartDNN.impl.hpp: predict", "smart_dnn/Layers/FullyConnectedLayer.hpp: forward", "smart_dnn/Layers/Conv2DLayer.hpp: forward", "smart_dnn/Regularisation/MaxPooling2DLayer.hpp: forward", "smart_dnn/Layers/FlattenLayer.hpp: forward", "smart_dnn/Layers/ActivationLayer.hpp: forward", "smart_dnn/Regularisation/BatchNormalizationLayer.hpp: forward", "smart_dnn/Regularisation/DropoutLayer.hpp: forward"]}
{"id": "C85", "title": "Training reaches every parameter", "statement": "Every parameter of every layer that influences the loss is adjusted by train: no filter, channel or bias is left at its initial value for ever.", "quantifier": "All models, positions of the layer in the model, layer sizes, initial parameters, data, losses, optimizers without weight decay and histories of calls.", "why_tests_cant": "A test can look at a few parameters after a few steps; that some never move, whatever the data, the optimizer and the length of training, is a statement about all histories.", "anchors": ["smart_dnn/Layers/Conv2DLayer.hpp: backward, updateWeights", "smart_dnn/Optimizers/SGDOptimizer.hpp: updateTensor", "smart_dnn/Optimizers/AdamOptimizer.hpp: updateParameter", "smart_dnn/Optimizers/RMSPropOptimizer.hpp: updateTensor", "smart_dnn/SmartDNN/SmartDNN.impl.hpp: train"]}
{"id": "C86", "title": "Using one model does not influence another", "statement": "A program that uses two models, in any order of calls (training, prediction, backward, updates, mode changes, compile, added layers, also calls that throw), sees the same results of each model, and the same model at the end, as a program that uses only that model.", "quantifier": "all pairs of models, all interleavings of calls, all arguments, all random engines, every number type", "why_tests_cant": "A test runs a few models side by side; shared state is only seen for the interleavings and histories tried.", "anchors": ["smart_dnn/RandomEngine.hpp", "smart_dnn/SmartDNN.hpp", "smart_dnn/SmartDNN/SmartDNN.impl.hpp: train, predict", "smart_dnn/Regularisation/DropoutLayer.hpp: forward", "smart_dnn/Tensor/TensorOperations.hpp"]}
{"id": "C87", "title": "The order of the samples in a batch does not matter for training", "statement": "Storing the samples of a batch, with their targets, in another order changes nothing about training: train prints the same losses and leaves the same parameters, gradients and optimizer state, for real-number arithmetic.", "quantifier": "all models whose layer sizes fit, all parameters, all batches, a different order for each batch, both losses, all optimizers with any options, any number of epochs", "why_tests_cant": "A test tries a few orders on one model; the claim is about all permutations and about the whole training history.", "anchors": ["smart_dnn/SmartDNN/SmartDNN.impl.hpp: train", "smart_dnn/Layers/FullyConnectedLayer.hpp: backward", "smart_dnn/Layers/Conv2DLayer.hpp: backward", "smart_dnn/Activations/Softmax.hpp: forward, backward", "smart_dnn/Layers/FlattenLayer.hpp", "smart_dnn/Loss/MSELoss.hpp", "smart_dnn/Loss/CategoricalCrossEntropyLoss.hpp"]}
{"id": "C88", "title": "A training step on a batch is the average of the steps on its samples", "statement": "With SGD without momentum and weight decay, one training step on a batch prints the average of the losses that one step from the same model on each sample alone prints, and leaves every parameter at the average of its values after these steps, for real-number arithmetic.", "quantifier": "all models whose layer sizes fit, all parameters, all batches of any size, both losses, every learning rate", "why_tests_cant": "A test compares one batch with its samples; the claim is an identity over all batches and parameters, and rests on how every layer and loss scales with the batch size.", "anchors": ["smart_dnn/SmartDNN/SmartDNN.impl.hpp: train", "smart_dnn/Layers/FullyConnectedLayer.hpp: backward", "smart_dnn/Layers/Conv2DLayer.hpp: backward", "smart_dnn/Activations/Softmax.hpp: forward, backward", "smart_dnn/Layers/FlattenLayer.hpp", "smart_dnn/Regularisation/MaxPooling2DLayer.hpp", "smart_dnn/Regularisation/DropoutLayer.hpp", "smart_dnn/Loss/MSELoss.hpp", "smart_dnn/Loss/CategoricalCrossEntropyLoss.hpp", "smart_dnn/Optimizers/SGDOptimizer.hpp"]}
{"id": "C89", "title": "Training a linear model converges to the best affine fit", "statement": "A model that is one fully connected layer, compiled with the mean squared error and plain SGD and trained on one batch with arbitrary targets, prints losses that never grow and tend to the smallest error any affine map reaches on the batch, from every starting parameter, as long as the learning rate is below (samples * outputs) / sum over the samples of (1 + |x|^2). After N epochs the loss exceeds the error of any given affine map by at most a constant over N.", "quantifier": "all sizes, all batches and targets, all starting parameters, all learning rates below the threshold, all epoch counts", "why_tests_cant": "Convergence is a statement about all epoch counts, and the limit is an infimum over all parameters; a test sees finitely many steps.", "anchors": ["smart_dnn/SmartDNN/SmartDNN.impl.hpp: train, updateWeights", "smart_dnn/Layers/FullyConnectedLayer.hpp: forward, backward, updateWeights", "smart_dnn/Loss/MSELoss.hpp: compute, gradient", "smart_dnn/Optimizers/SGDOptimizer.hpp: optimize"]}
{"id": "C90", "title": "Predictions can be made from several threads at once", "statement": "predict may be called from several threads at the same time, on one model or on several: each call returns what it would return alone, for every interleaving, without data races.", "quantifier": "every model, all inputs, any number of threads and calls, every interleaving of the memory accesses", "why_tests_cant": "Races depend on the schedule and are rarely observed.", "anchors": ["smart_dnn/SmartDNN/SmartDNN.impl.hpp: predict", "smart_dnn/Layers/ActivationLayer.hpp: forward", "smart_dnn/Layers/Conv2DLayer.hpp: forward", "smart_dnn/Layers/FlattenLayer.hpp: forward", "smart_dnn/Layers/FullyConnectedLayer.hpp: forward", "smart_dnn/Regularisation/BatchNormalizationLayer.hpp: forward", "smart_dnn/Regularisation/DropoutLayer.hpp: forward", "smart_dnn/Regularisation/MaxPooling2DLayer.hpp: forward", "smart_dnn/RandomEngine.hpp: getInstance"]}
{"id": "C91", "title": "Vectorised sums give the result of the sequential loop", "statement": "The loops of dotProduct and matrixVectorMul carry an OpenMP simd reduction clause, so the compiler may spread the terms over lanes and add the lanes in any order. In exact arithmetic matmul returns the same tensor, and fails on the same shapes, for every such choice. In floating point a finite result is the exact dot product up to a relative error of (1+u)^(c+1) - 1 of the sum of the absolute values of the terms (plus the underflow of the products), where c is the longest chain of additions, at most the length of the loop plus the number of additions between lanes; so two builds differ by at most the sum of their bounds. They need not agree bit for bit.", "quantifier": "all lengths, all assignments of iterations to lanes, all orders of adding the lanes (chosen anew for each row), all operands, all floating-point formats that round as IEEE 754 demands", "why_tests_cant": "A test sees the code of one compiler for one processor; the clause allows every assignment of iterations to lanes and every order of adding them.", "anchors": ["smart_dnn/Tensor/AdvancedTensorOperations.hpp: dotProduct (290-293), matrixVectorMul (357-360), matmul"]}
{"id": "C92", "title": "An exception during training costs only the failing sample", "statement": "If train throws because one sample is malformed, the model has learned exactly what the samples before it taught: whoever catches the exception can train, predict or recompile as if the failing sample had not been there.", "quantifier": "every model, every list of samples, every number of epochs, every point at which an exception is thrown, every later sequence of calls", "why_tests_cant": "The state in which an exception leaves a model depends on where it is thrown and only shows in later calls.", "anchors": ["smart_dnn/SmartDNN/SmartDNN.impl.hpp: train, predict, backward, updateWeights", "smart_dnn/Layers/ActivationLayer.hpp: forward, backward, updateWeights", "smart_dnn/Layers/Conv2DLayer.hpp: forward, backward, updateWeights", "smart_dnn/Layers/FlattenLayer.hpp: forward, backward, updateWeights", "smart_dnn/Layers/FullyConnectedLayer.hpp: forward, backward, updateWeights", "smart_dnn/Regularisation/BatchNormalizationLayer.hpp: forward, backward", "smart_dnn/Regularisation/DropoutLayer.hpp: forward, backward", "smart_dnn/Regularisation/MaxPooling2DLayer.hpp: forward, backward"]}
{"id": "C93", "title": "Training does not use more and more memory", "statement": "After the first call of train a model holds exactly: its parameters, one gradient for each of them, what the optimizer keeps for each of them (one number for SGD, two for Adam, one to three for RMSProp) and, for each layer, the batch (or the mask) of the last forward pass. The count depends on the layers, the optimizer and the dimensions of a batch only: it is the same however many samples and epochs there were, and any number of later calls of train, predict and the batch predict on data of the same dimensions leaves it unchanged. The optimizer has no entries for anything but the parameters of the model.", "quantifier": "all models whose layers fit together (dense, convolution, pooling, flatten, dropout, activations; any depth and any sizes), all losses that fit, all freshly made optimizers with all options, all data sets, all positive numbers of epochs, all later sequences of calls", "why_tests_cant": "A leak shows only after long runs: a test stops after a few epochs, and a map that gains an entry per step or a buffer that gains a batch per call passes every functional check.", "anchors": ["smart_dnn/SmartDNN/SmartDNN.impl.hpp: train, predict, updateWeights", "smart_dnn/Optimizers/SGDOptimizer.hpp: momentumBuffers", "smart_dnn/Optimizers/RMSPropOptimizer.hpp: squaredGrads, meanGrads, velocityBuffers", "smart_dnn/Optimizers/AdamOptimizer.hpp: m, v", "smart_dnn/Layers/FullyConnectedLayer.hpp: input, weightGradients, biasGradients", "smart_dnn/Layers/Conv2DLayer.hpp: input, weightGradients, biasGradients"]}
{"id": "C94", "title": "Training can go on for as long as one likes", "statement": "However many samples, epochs and calls of train there have been, the next call of train does what the first would do in the same state; no internal counter runs out.", "quantifier": "all models, optimizers and data, all numbers of epochs, all states of the optimizer (that is, all earlier training)", "why_tests_cant": "The counter of Adam is a 32-bit signed integer advanced once per layer with parameters in every step: it takes 2^31 calls before anything happens, far beyond any test, though a model with ten such layers gets there after 215 million samples.", "anchors": ["smart_dnn/Optimizers/AdamOptimizer.hpp: iterations, updateLearningRate, optimize", "smart_dnn/SmartDNN/SmartDNN.impl.hpp: train, updateWeights"]}
{"id": "C95", "title": "Convolutional feature extractors look at windows and follow translations", "statement": "In a model made of convolutions, elementwise activations and unpadded max poolings, the answer at position (i, j) of a feature map depends only on a window of the image, rh by rw pixels at (s i, s j), whose size and step follow from kernel sizes, pool sizes and pool strides alone and which lies inside the image. Two calls of predict on batches of any sizes give the same answer wherever the windows show the same pixels: pixels outside the window, the other images of the batch, the place in the batch and the size of the image do not matter, and moving an image by s rows or columns moves the answers by one.", "quantifier": "all stacks of these layers of any depth, kernel and pool sizes, strides and parameters, all batch sizes, channel counts and image sizes the layers accept, all images, all pairs of positions", "why_tests_cant": "A test compares a few shifts of a few images through one architecture; an off-by-one in a window or a read of the wrong image of the batch appears only at some positions and sizes.", "anchors": ["smart_dnn/Layers/Conv2DLayer.hpp: forward, im2col, col2im", "smart_dnn/Regularisation/MaxPooling2DLayer.hpp: forward, findMaxInPoolWindow", "smart_dnn/Layers/ActivationLayer.hpp: forward", "smart_dnn/SmartDNN/SmartDNN.impl.hpp: predict"]}
{"id": "C96", "title": "Predictions in floating point are close to the exact ones", "statement": "The prediction a model computes in floating point differs from the prediction of the same model in exact arithmetic by at most a bound that is computed layer by layer from the sizes of the parameters and inputs: fully connected layers and convolutions add the error of summing their products and amplify earlier errors by the weights, ReLU passes errors on unchanged, LeakyReLU adds the error of one product, sigmoid passes a quarter of the error on, flatten moves it. For models of fully connected layers and ReLU of any depth the bound is ((1+u)^K - 1) times the prediction of the model with absolute values, K the sum of the numbers of inputs plus two per layer, plus underflow. As long as the bounds stay below the largest number of the format, nothing overflows.", "quantifier": "all models of fully connected, convolution, flatten and activation layers of any depth and width, all parameters, batch sizes and inputs, all number formats with a rounding unit and an underflow unit, in particular all binary formats", "why_tests_cant": "A test compares a few predictions with a reference within a tolerance that was tuned to pass; it cannot tell a large admissible error from a wrong computation, nor show that the error of other inputs and parameters stays below it.", "anchors": ["smart_dnn/SmartDNN/SmartDNN.impl.hpp: predict", "smart_dnn/Layers/FullyConnectedLayer.hpp: forward", "smart_dnn/Layers/Conv2DLayer.hpp: forward", "smart_dnn/Layers/FlattenLayer.hpp: forward", "smart_dnn/Activations/ReLU.hpp: forward", "smart_dnn/Activations/LeakyReLU.hpp: forward", "smart_dnn/Activations/Sigmoid.hpp: forward", "smart_dnn/Activations/Tanh.hpp: forward"]}
{"id": "C97", "title": "Small changes of input and parameters make small changes of predictions", "statement": "Predictions in evaluation mode are Lipschitz functions of the input: if no number of the input changes by more than e, no number of the prediction changes by more than e times the product of the gains of the layers. The gain of a fully connected layer is the largest sum of the absolute values of the weights of one output, of a convolution that of one kernel, of softmax 1/2, of an elementwise activation its Lipschitz constant, and of flatten, max pooling and dropout 1. Every well-shaped model has such a constant. With changes of the parameters by at most d as well, the change of the prediction is bounded by a formula that passes through the layers, and it becomes arbitrarily small when both changes do.", "quantifier": "all well-shaped models of any depth (fully connected, convolution, max pooling, flatten, dropout in evaluation mode, all activations), all parameters and changes of them, all batch sizes, all pairs of inputs", "why_tests_cant": "A test can try a few small changes; the bound must hold for the worst change of all inputs at once, and continuity is a statement about infinitely many inputs.", "anchors": ["smart_dnn/SmartDNN/SmartDNN.impl.hpp: predict, evalMode", "smart_dnn/Layers/ActivationLayer.hpp: forward", "smart_dnn/Layers/Conv2DLayer.hpp: forward", "smart_dnn/Layers/FlattenLayer.hpp: forward", "smart_dnn/Layers/FullyConnectedLayer.hpp: forward", "smart_dnn/Activations/LeakyReLU.hpp: forward", "smart_dnn/Activations/Mish.hpp: forward", "smart_dnn/Activations/ReLU.hpp: forward", "smart_dnn/Activations/Sigmoid.hpp: forward", "smart_dnn/Activations/Softmax.hpp: forward", "smart_dnn/Activations/Swish.hpp: forward", "smart_dnn/Activations/Tanh.hpp: forward", "smart_dnn/Regularisation/MaxPooling2DLayer.hpp: forward", "smart_dnn/Regularisation/DropoutLayer.hpp: forward"]}
{"id": "C98", "title": "The order of hidden units does not matter, and equal hidden units stay equal", "statement": "Take a model and rename hidden units of its fully connected layers: permute the columns of a weight matrix and its biases, and the rows of the next weight matrix in the same way, with elementwise activations in between. The new model predicts the same values, and training both on the same data prints the same losses and gives models that are again renamings of each other, in their weights and in what their optimizers remember, for SGD, RMSProp and Adam. So the names of hidden units carry no information. It follows that two hidden units which start with equal incoming weights, biases and outgoing weights have equal ones after any training: constant initialisation is never repaired by training.", "quantifier": "all well-shaped models of any depth that contain fully connected layers (other layers anywhere else, dropout in training mode included), all permutations of any number of hidden layers at once, all parameters, all data, losses and optimizers, any number of epochs", "why_tests_cant": "A test can permute one small network and compare numbers within a tolerance; the property quantifies over all permutations, models and training histories.", "anchors": ["smart_dnn/SmartDNN/SmartDNN.impl.hpp: train, predict", "smart_dnn/Layers/FullyConnectedLayer.hpp: forward, backward, updateWeights", "smart_dnn/Activations/LeakyReLU.hpp", "smart_dnn/Activations/Mish.hpp", "smart_dnn/Activations/ReLU.hpp", "smart_dnn/Activations/Sigmoid.hpp", "smart_dnn/Activations/Softmax.hpp", "smart_dnn/Activations/Swish.hpp", "smart_dnn/Activations/Tanh.hpp", "smart_dnn/Optimizers/AdamOptimizer.hpp: optimize", "smart_dnn/Optimizers/RMSPropOptimizer.hpp: optimize", "smart_dnn/Optimizers/SGDOptimizer.hpp: optimize"]}
{"id": "C99", "title": "Data of the wrong shape are reported by an exception", "statement": "predict and train accept any data: if inputs, targets and layers do not fit together they throw an exception, and otherwise they succeed; which dimensions are accepted and which come out is given by a table per kind of layer. They never run into undefined behaviour and never stop the program.", "quantifier": "all lists of dense, activation, flatten, convolution, pooling, dropout and batch normalisation layers (train: pooling without padding and no batch normalisation), all dimensions of inputs and targets (any rank, whether they fit or not), all numbers of samples, targets and epochs, all numbers in the data, all optimizers", "why_tests_cant": "There are infinitely many combinations of layer lists and dimensions, and a mismatch may only show deep inside a model or on the way back; tests try a few.", "anchors": ["smart_dnn/SmartDNN/SmartDNN.impl.hpp: predict, train, backward", "smart_dnn/Layers/FullyConnectedLayer.hpp: forward, backward", "smart_dnn/Layers/Conv2DLayer.hpp: forward, backward", "smart_dnn/Regularisation/MaxPooling2DLayer.hpp: forward", "smart_dnn/Layers/FlattenLayer.hpp: forward, backward", "smart_dnn/Layers/ActivationLayer.hpp: forward, backward", "smart_dnn/Activations/Softmax.hpp", "smart_dnn/Loss/MSELoss.hpp", "smart_dnn/Loss/CategoricalCrossEntropyLoss.hpp", "smart_dnn/Tensor/AdvancedTensorOperations.hpp: matmul"]}
{"id": "C100", "title": "Training with Adam or RMSProp moves no parameter faster than a fixed multiple of the learning rate", "statement": "One update of the weights with Adam moves every parameter by at most learningRate * ((1-beta1) * sqrt(beta2 / ((1-beta2)(beta2-beta1^2))) + l1Strength), and with RMSProp (not centered) by at most learningRate / (sqrt(1-alpha) * (1-momentum)), whatever the gradients are: with the defaults 7.3 and 10 times the learning rate. So after any history of calls every parameter is within (number of updates) times this bound of its first value, however large or inconsistent the data are, and whether the calls return or throw. With SGD there is no such bound.", "quantifier": "all models and layers, all data, losses, engines, numbers of epochs and histories of public calls (training, prediction, single backward and update calls, mode switches, added layers, recompilation with a new optimizer of this kind), all outcomes of the calls, all options with beta1^2 < beta2, 1-beta2 <= (1-beta1)^2, 0 <= alpha < 1, momentum < 1, epsilon > 0 and no L2 term in Adam", "why_tests_cant": "A test can watch a few steps on a few data sets; the bound is about the largest step over all sequences of gradients, for Adam reached only by carefully chosen growing sequences.", "anchors": ["smart_dnn/SmartDNN/SmartDNN.impl.hpp: train, updateWeights", "smart_dnn/Optimizers/AdamOptimizer.hpp: optimize", "smart_dnn/Optimizers/RMSPropOptimizer.hpp: optimize", "smart_dnn/Layers/ActivationLayer.hpp: updateWeights", "smart_dnn/Layers/Conv2DLayer.hpp: updateWeights", "smart_dnn/Layers/FlattenLayer.hpp: updateWeights", "smart_dnn/Layers/FullyConnectedLayer.hpp: updateWeights"]}
{"id": "C101", "title": "Every tensor that comes out of the library agrees with its shape", "statement": "Whatever a program does with the library, every tensor it gets has at least one dimension, all dimensions positive, size and strides computed from them, and exactly size() elements in its buffer. This holds for results of constructors, factories, arithmetic, in-place operations (also after they throw), reshaping, slices, reductions, products, activations, losses and convolution helpers; for all parameters, gradients, caches and optimizer buffers of a model; and for all predictions and printed losses, through any history of calls including failing ones. Tensors of fewer than 2^31 elements are therefore exactly the arrays over the index tuples of some positive dimensions, the form in which the other properties take their arguments.", "quantifier": "all element types, all sequences of operations on tensors, all models, data, engines and histories of public calls, all outcomes of the calls", "why_tests_cant": "A test checks the results of a few operations; an operation that returns a buffer of the wrong length for some shape, or that leaves one behind when it throws, shows up only as undefined behaviour later on.", "anchors": ["smart_dnn/Tensor/AdvancedTensorOperations.hpp: all operations that return or change a tensor", "smart_dnn/Tensor/BroadcastView.hpp: all operations that return or change a tensor", "smart_dnn/Tensor/SliceView.hpp: all operations that return or change a tensor", "smart_dnn/Tensor/Tensor.hpp: all operations that return or change a tensor", "smart_dnn/Tensor/TensorDataCPU.impl.hpp: all operations that return or change a tensor", "smart_dnn/Tensor/TensorFactory.hpp: all operations that return or change a tensor", "smart_dnn/Tensor/TensorOperations.hpp: all operations that return or change a tensor", "smart_dnn/Activations/LeakyReLU.hpp", "smart_dnn/Activations/Mish.hpp", "smart_dnn/Activations/ReLU.hpp", "smart_dnn/Activations/Sigmoid.hpp", "smart_dnn/Activations/Softmax.hpp", "smart_dnn/Activations/Swish.hpp", "smart_dnn/Activations/Tanh.hpp", "smart_dnn/Loss/CategoricalCrossEntropyLoss.hpp", "smart_dnn/Loss/MSELoss.hpp", "smart_dnn/Layers/ActivationLayer.hpp", "smart_dnn/Layers/Conv2DLayer.hpp", "smart_dnn/Layers/FlattenLayer.hpp", "smart_dnn/Layers/FullyConnectedLayer.hpp", "smart_dnn/Regularisation/BatchNormalizationLayer.hpp", "smart_dnn/Regularisation/DropoutLayer.hpp", "smart_dnn/Regularisation/MaxPooling2DLayer.hpp", "smart_dnn/Optimizers/AdamOptimizer.hpp", "smart_dnn/Optimizers/RMSPropOptimizer.hpp", "smart_dnn/Optimizers/SGDOptimizer.hpp", "smart_dnn/SmartDNN/SmartDNN.impl.hpp: train, predict, backward, updateWeights"]}
{"id": "C102", "title": "The last activation fixes the range of all predictions, and printed losses are never negative", "statement": "A model whose last layer is an activation layer keeps its promise however it was built and trained. Every prediction that returns has only non-negative entries (ReLU), entries strictly between 0 and 1 (sigmoid), strictly between -1 and 1 (tanh), or rows of positive numbers that sum to one (softmax). This holds in both modes, for predict and predictAll, for inputs of any shape, after any history of calls that keeps the list of layers, including calls that throw. The losses that training prints are never negative: with the squared error for all models and data, with the cross entropy if the targets have no negative entries.", "quantifier": "all models with any layers and weights, all inputs of any shape, all histories of training, prediction, gradient, update, compile and mode calls with any outcome, all engines; for the losses all models, data and numbers of epochs", "why_tests_cant": "A test looks at the predictions of one trained model; a range must hold for all weights any training can reach, and nobody can try all of them.", "anchors": ["smart_dnn/Activations/LeakyReLU.hpp: forward", "smart_dnn/Activations/Mish.hpp: forward", "smart_dnn/Activations/ReLU.hpp: forward", "smart_dnn/Activations/Sigmoid.hpp: forward", "smart_dnn/Activations/Softmax.hpp: forward", "smart_dnn/Activations/Swish.hpp: forward", "smart_dnn/Activations/Tanh.hpp: forward", "smart_dnn/Layers/ActivationLayer.hpp: forward", "smart_dnn/Loss/MSELoss.hpp: compute", "smart_dnn/Loss/CategoricalCrossEntropyLoss.hpp: compute", "smart_dnn/SmartDNN/SmartDNN.impl.hpp: train, predict"]}
{"id": "C103", "title": "Training a model on data it already fits leaves it as it is", "statement": "If the predictions of a compiled model already equal the targets, training on these data changes nothing: for any number of epochs and any number of calls of train, mixed with predictions, every parameter keeps exactly its value, every later prediction is exactly what it was before, and with the squared error all printed losses are zero. This holds whether the calls return or throw.", "quantifier": "all models of dense, convolution, pooling, flatten and activation layers, all weights, all data that the model fits, all numbers of epochs and calls, SGD, RMSProp and Adam with any options but weight decay and penalties, all outcomes", "why_tests_cant": "A test trains one fitted model for some epochs; that nothing creeps in through momentum, bias correction, batches or the order of calls has to hold for all models and histories.", "anchors": ["smart_dnn/Loss/MSELoss.hpp: gradient", "smart_dnn/Loss/CategoricalCrossEntropyLoss.hpp: gradient", "smart_dnn/Layers/ActivationLayer.hpp: backward, updateWeights", "smart_dnn/Layers/Conv2DLayer.hpp: backward, updateWeights", "smart_dnn/Layers/FlattenLayer.hpp: backward, updateWeights", "smart_dnn/Layers/FullyConnectedLayer.hpp: backward, updateWeights", "smart_dnn/Optimizers/AdamOptimizer.hpp: optimize", "smart_dnn/Optimizers/RMSPropOptimizer.hpp: optimize", "smart_dnn/Optimizers/SGDOptimizer.hpp: optimize", "smart_dnn/SmartDNN/SmartDNN.impl.hpp: train"]}
{"id": "C104", "title": "Whether a call throws depends on shapes and settings, never on the numbers", "statement": "Two models of the same make, that is with the same classes of layers, the same settings, tensors of the same shapes and the same classes of loss and optimizer, answer the same calls alike when the data have the same shapes: each call either returns tensors of the same shapes for both or throws the same exception for both. This holds for training (which prints the same number of losses), prediction, weight updates, mode switches, compiling and adding or replacing layers, for whole histories including the calls after an exception, and for the tensor operations, activation functions and losses alone. In particular no value in the data, the weights or the random numbers, not even NaN or infinity, makes a call throw or saves it from throwing. The two runs may use different number types, so a statement about exceptions that holds for exact real arithmetic holds for floating point. In particular the models that never fail in exact arithmetic (C67) never fail in any arithmetic in which only the whole number zero is zero. Dividing a tensor by a number is the one exception: it throws exactly if the number is zero.", "quantifier": "all pairs of models of the same make over any two number types with any arithmetic in which the same whole numbers are zero, all data of the same shapes, all numbers of epochs, all engines, all histories of calls", "why_tests_cant": "A test that trains with one set of numbers says nothing about the other values; that no value ever changes the control flow of an exception is a statement about pairs of runs.", "anchors": ["smart_dnn/SmartDNN/SmartDNN.impl.hpp: train, predict, updateWeights", "smart_dnn/Layers/ActivationLayer.hpp: forward, backward, updateWeights", "smart_dnn/Layers/Conv2DLayer.hpp: forward, backward, updateWeights", "smart_dnn/Layers/FlattenLayer.hpp: forward, backward, updateWeights", "smart_dnn/Layers/FullyConnectedLayer.hpp: forward, backward, updateWeights", "smart_dnn/Regularisation/BatchNormalizationLayer.hpp: forward, backward", "smart_dnn/Regularisation/DropoutLayer.hpp: forward, backward", "smart_dnn/Regularisation/MaxPooling2DLayer.hpp: forward, backward", "smart_dnn/Activations/LeakyReLU.hpp", "smart_dnn/Activations/Mish.hpp", "smart_dnn/Activations/ReLU.hpp", "smart_dnn/Activations/Sigmoid.hpp", "smart_dnn/Activations/Softmax.hpp", "smart_dnn/Activations/Swish.hpp", "smart_dnn/Activations/Tanh.hpp", "smart_dnn/Loss/CategoricalCrossEntropyLoss.hpp", "smart_dnn/Loss/MSELoss.hpp", "smart_dnn/Optimizers/AdamOptimizer.hpp: optimize", "smart_dnn/Optimizers/RMSPropOptimizer.hpp: optimize", "smart_dnn/Optimizers/SGDOptimizer.hpp: optimize", "smart_dnn/Tensor/TensorOperations.hpp", "smart_dnn/Tensor/AdvancedTensorOperations.hpp: matmul, transpose, sum, mean, variance"]}
{"id": "C105", "title": "A model without negative weights never answers less to more", "statement": "Take a model in which no weight of a dense or convolutional layer and no scale of a batch normalisation is negative, every activation is one that never decreases, and dropout and batch normalisation are in evaluation mode. If one input is nowhere smaller than another of the same shape, then the prediction for it is nowhere smaller than the prediction for the other, or both calls throw the same exception. This holds for any stack of dense, convolutional, pooling, flatten, dropout, batch normalisation and activation layers. It holds not only in exact arithmetic but with every rounding that keeps the order of numbers, in particular with rounding to nearest in binary floating point of any precision as long as nothing overflows. ReLU, leaky ReLU and sigmoid never decrease, also when rounded; tanh never decreases in exact arithmetic; swish does decrease. A single negative weight is enough to break the property.", "quantifier": "all models of such layers, all biases, running statistics and weights that are not negative, all pairs of inputs of which one is nowhere smaller, all engines, all roundings that keep the order and zero", "why_tests_cant": "A test compares a few pairs of inputs; that no pair is answered in reverse order, and that no rounding error ever reverses one, is a statement about all of them.", "anchors": ["smart_dnn/SmartDNN/SmartDNN.impl.hpp: predict", "smart_dnn/Layers/FullyConnectedLayer.hpp: forward", "smart_dnn/Layers/Conv2DLayer.hpp: forward", "smart_dnn/Layers/FlattenLayer.hpp: forward", "smart_dnn/Layers/ActivationLayer.hpp: forward", "smart_dnn/Regularisation/MaxPooling2DLayer.hpp: forward", "smart_dnn/Regularisation/BatchNormalizationLayer.hpp: forward", "smart_dnn/Regularisation/DropoutLayer.hpp: forward", "smart_dnn/Activations/ReLU.hpp", "smart_dnn/Activations/LeakyReLU.hpp", "smart_dnn/Activations/Sigmoid.hpp", "smart_dnn/Activations/Tanh.hpp", "smart_dnn/Activations/Swish.hpp"]}
{"id": "C106", "title": "How the optimizers respond to the scale and the sign of the gradients", "statement": "Over every history of optimize calls: multiplying all gradients by c > 0 changes nothing for SGD if the learning rate is divided by c and the weight decay multiplied by c; nothing for RMSProp if epsilon is multiplied by the square of c and the weight decay by c; nothing for Adam if epsilon is multiplied by c. So with epsilon zero (and no weight decay) the paths RMSProp and Adam take do not depend on the scale of the gradients at all. Adam's batchSize option B is the same as a batch size of one with B times the epsilon. Reversing the sign of all gradients mirrors the path of the weights about their starting point, for all three optimizers without weight decay and penalties.", "quantifier": "every history of gradients of any length, all starting weights, all options, all learning rate overrides, all positive factors", "why_tests_cant": "A test compares a few steps; that two runs with differently scaled gradients stay together over every history is a statement about all of them.", "anchors": ["smart_dnn/Optimizers/SGDOptimizer.hpp: optimize", "smart_dnn/Optimizers/RMSPropOptimizer.hpp: optimize", "smart_dnn/Optimizers/AdamOptimizer.hpp: optimize"]}
{"id": "C107", "title": "What weight decay does", "statement": "A training step with mean squared error and SGD with weight decay wd and no momentum moves the weights and biases of every fully connected layer by -learningRate times the gradient of the error plus wd/2 times the sum of their squares; the printed loss does not include that penalty. While all gradients are zero, SGD with weight decay and Adam with an L2 strength multiply every parameter by 1 - learningRate * strength per step. With weight decay wd > 0 and learning rates of at most 1/wd, gradients of at most G never take a parameter of SGD without momentum further from zero than where it started or than G/wd. With a positive L2 strength, times the learning rate at most 1, Adam keeps all parameters of a model in a fixed interval around zero for ever, whatever is done with the model, even if the gradients grow without bound. RMSProp's weight decay bounds nothing: it is normalised together with the gradient.", "quantifier": "every stack of layers around the layer in question, all parameters, inputs, targets, learning rates and decays; every history of gradients of any length; for Adam every history of calls on a model, including calls that throw, added layers and changed optimizers", "why_tests_cant": "A test trains for some steps on some data; that a parameter can never leave an interval is a statement about all data and all histories.", "anchors": ["smart_dnn/Optimizers/SGDOptimizer.hpp: updateTensor", "smart_dnn/Optimizers/RMSPropOptimizer.hpp: updateTensor", "smart_dnn/Optimizers/AdamOptimizer.hpp: updateParameter", "smart_dnn/SmartDNN/SmartDNN.impl.hpp: train"]}
{"id": "C108", "title": "Small whole numbers are computed exactly in floating point", "statement": "A model of dense layers, convolutions, flattening, max pooling, ReLU and dropout in evaluation mode whose parameters are whole numbers, given whole numbers (pixel values, counts, one-hot codes), predicts in floating point exactly what exact arithmetic gives, number by number, and throws exactly if the exact computation does, as long as in every dense layer and convolution the sums of the absolute values of the products and the bias stay below 2^(p+1) (2^24 in single precision). For every such model and input there is a precision from which on this holds. Above the bound it fails: in single precision a layer that adds 1 maps 2^25 to 2^25.", "quantifier": "all stacks of these layers, all sizes, all whole-number parameters and inputs, every rounding that leaves whole numbers below a bound unchanged; every binary format", "why_tests_cant": "A test compares some outputs; that no rounding at all happens anywhere in the network is a statement about all inputs within the bound.", "anchors": ["smart_dnn/Tensor/AdvancedTensorOperations.hpp: matmul", "smart_dnn/Layers/FullyConnectedLayer.hpp: forward", "smart_dnn/Layers/Conv2DLayer.hpp: forward", "smart_dnn/Regularisation/MaxPooling2DLayer.hpp: forward", "smart_dnn/Activations/ReLU.hpp: forward", "smart_dnn/SmartDNN/SmartDNN.impl.hpp: predict"]}
{"id": "C109", "title": "Rewriting a model without changing its answers", "statement": "Layers that make the same of every tensor of some dimensions may be exchanged anywhere in a model without changing any prediction. Two dense layers with no activation between them are one dense layer, whose weights are matmul of the weights and whose biases are what the second layer makes of the first one's biases. A batch normalisation in evaluation mode after a dense layer can be folded into its weights and biases. Multiplying the weights into a hidden unit and its bias by a positive number and dividing the weights out of it by the same number changes nothing if the activation between is ReLU or leaky ReLU. Dropout in evaluation mode can be left out, ReLU twice is ReLU once, and max pooling and any activation that never decreases can change places. A network without biases whose activations are ReLU or leaky ReLU answers c times as much to c times the input, for every c >= 0. A convolution of images with one channel whose kernels are as large as the images, followed by flatten, is flatten followed by a dense layer. An elementwise activation and flatten can change places. A convolution with the 1 by 1 kernel 1 and bias 0, and max pooling with windows of one element, can be left out.", "quantifier": "all sizes, all weights, biases and statistics, all inputs, all layers before and after the exchanged ones, all positive factors", "why_tests_cant": "A test compares two models on some inputs; that they are the same function is a statement about all inputs and parameters.", "anchors": ["smart_dnn/Layers/FullyConnectedLayer.hpp: forward", "smart_dnn/Regularisation/BatchNormalizationLayer.hpp: forward", "smart_dnn/Regularisation/DropoutLayer.hpp: forward", "smart_dnn/Regularisation/MaxPooling2DLayer.hpp: forward", "smart_dnn/Activations/ReLU.hpp: forward", "smart_dnn/Activations/LeakyReLU.hpp: forward", "smart_dnn/Tensor/AdvancedTensorOperations.hpp: matmul", "smart_dnn/SmartDNN/SmartDNN.impl.hpp: predict"]}
{"id": "C110", "title": "What the losses ask for", "statement": "Mean squared error asks for the average: if one answer is given to several targets, the sum of the losses is the sum for the average of the targets plus, for each target, the loss of the answer against that average; so the average is the best answer and every other one is worse. Cross entropy sees only the average of the targets (with one-hot labels the frequencies of the classes), and asks for it: an answer made of probability distributions never has a smaller loss than the target distributions themselves, except for what the clamping to [eps, 1 - eps] gains, which is at most log(1 + k eps) - log(1 - eps) for k classes. That gain is real: for every eps up to 1/3 there are a target distribution and a different answer whose loss is smaller than that of the target itself.", "quantifier": "all tensors of targets, any number of them, all answers; all batches of distributions over any number of classes; all eps above 0 and at most 1/2", "why_tests_cant": "A test compares a few answers; that no answer is better is a statement about all of them.", "anchors": ["smart_dnn/Loss/MSELoss.hpp: compute", "smart_dnn/Loss/CategoricalCrossEntropyLoss.hpp: compute"]}
{"id": "C111", "title": "What models can fit", "statement": "A model with one hidden layer with ReLU (fully connected, ReLU, fully connected) that has at least as many hidden units as there are samples can fit every consistent set of data exactly: there are weights and biases with which predict returns the targets. Data that give equal inputs different targets cannot be fitted, whatever the size and the parameters. Without activations depth adds nothing: a model of fully connected layers only, however many, sends inputs with x_i + x_j = x_k + x_l to predictions with y_i + y_j = y_k + y_l. So no training can bring the mean squared error of such a model on exclusive or below 1/4, while one hidden layer with ReLU can be right on all four inputs.", "quantifier": "all numbers of samples, features, outputs and hidden units, all data; all models of fully connected layers of any depth and widths with any parameters", "why_tests_cant": "That suitable parameters exist for every data set, and that none exist for any depth without activations, are statements about infinitely many models.", "anchors": ["smart_dnn/SmartDNN/SmartDNN.impl.hpp: predict", "smart_dnn/Layers/FullyConnectedLayer.hpp: forward", "smart_dnn/Activations/ReLU.hpp: forward", "smart_dnn/Loss/MSELoss.hpp: compute"]}
{"id": "C112", "title": "Training with dropout descends on the thinned network, more slowly in front of dropout layers", "statement": "While a model with dropout layers is trained, predict computes the thinned network: the network in which each dropout layer has set the numbers it drew at most its rate for to zero and scaled the others up. With the mean squared error and SGD without momentum and weight decay, training on a sample prints the error of the thinned network and moves the weights and biases of each fully connected layer by -learningRate times the gradient of that error, times the product of the keep rates 1 - rate of the dropout layers behind the fully connected layer. For rates between 0 and 1 that factor is positive and smaller than 1 exactly if there is such a dropout layer: layers in front of dropout layers are trained with a smaller learning rate than layers behind them, since backward of a dropout layer leaves out the scaling that its forward applies.", "quantifier": "all models of fully connected, convolution, pooling, activation, softmax, flatten and dropout layers in any order, all rates other than 1, all states of the random engine and all engines, all inputs at which the thinned network is differentiable, all targets and learning rates", "why_tests_cant": "The masks are random, so a test sees the step for a few masks and cannot tell a missing factor from another draw; that the step is a positive multiple of the gradient for every mask and depth is a statement about all of them.", "anchors": ["smart_dnn/Regularisation/DropoutLayer.hpp: forward, backward", "smart_dnn/SmartDNN/SmartDNN.impl.hpp: train, trainStep, predict, backward", "smart_dnn/Layers/FullyConnectedLayer.hpp: backward"]}
{"id": "C113", "title": "A hidden ReLU unit that is silent on the training data is never trained", "statement": "In a model that begins with a fully connected layer and ReLU, consider a hidden unit whose value in front of ReLU is not positive for any row of the training batches. Training on these batches, for any number of epochs, in any number of calls and with any targets, loss, layers behind and optimizer without weight decay, changes neither the weights into the unit nor its bias, so that the value the unit computes is the same function of the input before and after and the unit stays silent on these batches for ever. If the next layer is fully connected, the weights out of the unit do not change either.", "quantifier": "all freshly compiled models that begin with a fully connected layer and ReLU, with any layers behind, all widths, hidden units, losses, SGD, RMSProp and Adam with all options without weight decay, all sequences of calls of train on data on which the unit is silent, and of predict on any input", "why_tests_cant": "A silent unit stays silent for ever only if no epoch of any length and no layer or optimizer behind can wake it up; a test trains for a few epochs and cannot tell a unit that never changes from one that changes slowly, for instance by momentum.", "anchors": ["smart_dnn/SmartDNN/SmartDNN.impl.hpp: train, trainStep, updateWeights", "smart_dnn/Layers/FullyConnectedLayer.hpp: forward, backward, updateWeights", "smart_dnn/Activations/ReLU.hpp: backward", "smart_dnn/Layers/ActivationLayer.hpp: backward", "smart_dnn/Optimizers/AdamOptimizer.hpp: optimize", "smart_dnn/Optimizers/RMSPropOptimizer.hpp: optimize", "smart_dnn/Optimizers/SGDOptimizer.hpp: optimize"]}
{"id": "C114", "title": "What batch normalisation ignores in training mode, and how far it reaches", "statement": "In training mode, the answer of a batch normalisation layer to a batch of vectors or images does not change if a constant is added to a feature of the whole batch; multiplying the batch by a positive number is the same as dividing epsilon by its square. Therefore the biases of a fully connected layer or a convolution in front of it have no effect on predictions. However large the inputs, no answer is further from the shift beta of its feature than the scale gamma times the square root of one less than the number of values averaged over; a feature that is constant over the batch is answered with beta, and in particular a batch of a single vector is answered with beta whatever the vector is, so that a model with such a layer predicts the same for every single sample as long as it is in training mode. With scales that are not negative the order of the samples of a batch by a feature is kept.", "quantifier": "all batches of vectors and images, all parameters, epsilon and momentum and all states of the running statistics that calls produce, all constants and positive factors, all layers in front and behind for the statements about models", "why_tests_cant": "Invariance under all shifts and factors and a bound that holds for all inputs, also for outliers of any size, cannot be sampled; a test with a batch of several rows does not show what becomes of a single row.", "anchors": ["smart_dnn/Regularisation/BatchNormalizationLayer.hpp: forward", "smart_dnn/Layers/FullyConnectedLayer.hpp: forward", "smart_dnn/Layers/Conv2DLayer.hpp: forward", "smart_dnn/SmartDNN/SmartDNN.impl.hpp: predict"]}
{"id": "C115", "title": "Input features that are always zero are not trained", "statement": "In a model that begins with a fully connected layer, or with a flatten layer and a fully connected layer, consider an entry of the samples that is zero in all training data, for instance a pixel in the black border of all images. Training on such data, for any number of epochs, in any number of calls and with any targets, loss, layers behind and optimizer without weight decay, leaves every weight that belongs to this entry exactly as it was initialised. So the trained model responds to this entry in its first layer as the untrained one does: if the entry is lit in a later sample, what reaches each unit of the first layer changes by the entry times the initial weight.", "quantifier": "all models that begin with a fully connected layer or flatten and a fully connected layer, with any layers behind, all dimensions of samples and entries of them, all losses, SGD, RMSProp and Adam with all options without weight decay, all sequences of calls of train on data in which the entry is zero, and of predict on any input", "why_tests_cant": "That a weight never moves is a statement about training runs of any length and about all layers, losses and optimizers behind, whose state could move it later, for instance by momentum; the position of the weight depends on the order in which flatten lays out images of every shape.", "anchors": ["smart_dnn/SmartDNN/SmartDNN.impl.hpp: train, trainStep, updateWeights", "smart_dnn/Layers/FullyConnectedLayer.hpp: forward, backward, updateWeights", "smart_dnn/Layers/FlattenLayer.hpp: forward, backward", "smart_dnn/Optimizers/AdamOptimizer.hpp: optimize", "smart_dnn/Optimizers/RMSPropOptimizer.hpp: optimize", "smart_dnn/Optimizers/SGDOptimizer.hpp: optimize"]}
{"id": "C116", "title": "The order of the features and of the classes does not matter", "statement": "A model whose first layer is fully connected: permuting the columns of the training data, and the rows of the first weight matrix in the same way, gives training that prints the same losses, the same parameters in all other layers, the permuted first weights, and the same predictions for permuted inputs. A model whose last layer is fully connected, possibly with softmax behind it: permuting the columns of the targets, and the columns of the last weight matrix and its biases in the same way, gives training that prints the same losses, the same parameters in all other layers, the permuted last weights and biases, and permuted predictions. So neither the order in which features are stored nor the numbering of the classes has an effect on what is learnt. The same holds for both together and with renamed hidden units in between.", "quantifier": "all models with these first or last layers, all widths and permutations, all other layers, both losses, freshly compiled SGD, RMSProp and Adam with all options including weight decay, all lists of batches and targets and all numbers of epochs", "why_tests_cant": "There are as many orders as permutations of the features, and the claim is about all of them for training of any length; a test that compares two orders compares rounded numbers after a few epochs.", "anchors": ["smart_dnn/SmartDNN/SmartDNN.impl.hpp: train, trainStep, predict, updateWeights", "smart_dnn/Layers/FullyConnectedLayer.hpp: forward, backward, updateWeights", "smart_dnn/Activations/Softmax.hpp: forward, backward", "smart_dnn/Loss/MSELoss.hpp: compute, gradient", "smart_dnn/Loss/CategoricalCrossEntropyLoss.hpp: compute, gradient", "smart_dnn/Optimizers/AdamOptimizer.hpp: optimize", "smart_dnn/Optimizers/RMSPropOptimizer.hpp: optimize", "smart_dnn/Optimizers/SGDOptimizer.hpp: optimize"]}
{"id": "C117", "title": "Input features that are always equal are not told apart by training", "statement": "In a model that begins with a fully connected layer, or with a flatten layer and a fully connected layer, consider two entries of the samples that are equal to each other in all training data, for instance a feature that was stored twice. Training on such data, for any number of epochs, in any number of calls and with any targets, loss, layers behind and optimizer without weight decay, keeps the difference between the two weights that lead from the two entries to any unit exactly as it was initialised. So the trained model tells the two entries apart as much as the untrained one does: moving an amount from one to the other in a later sample changes what each unit of the first layer computes by the amount times the difference of the initial weights.", "quantifier": "all models that begin with a fully connected layer or flatten and a fully connected layer, with any layers behind, all dimensions of samples and pairs of entries of them, all losses, SGD, RMSProp and Adam with all options without weight decay, all sequences of calls of train on data in which the two entries are equal, and of predict on any input", "why_tests_cant": "That a difference never changes is a statement about training runs of any length and about everything the optimizer remembers about the two weights; a slip in one element of one buffer would show only later, for some layouts and some options.", "anchors": ["smart_dnn/SmartDNN/SmartDNN.impl.hpp: train, trainStep, updateWeights", "smart_dnn/Layers/FullyConnectedLayer.hpp: forward, backward, updateWeights", "smart_dnn/Layers/FlattenLayer.hpp: forward, backward", "smart_dnn/Optimizers/AdamOptimizer.hpp: optimize", "smart_dnn/Optimizers/RMSPropOptimizer.hpp: optimize", "smart_dnn/Optimizers/SGDOptimizer.hpp: optimize"]}
{"id": "C118", "title": "Training does not change how a model responds to directions its data never show", "statement": "In a model that begins with a fully connected layer, or with a flatten layer and a fully connected layer, consider a direction u to which every training sample is orthogonal, for instance the difference of two features that are always in the same proportion. Training on such data, for any number of epochs and calls and with any optimizer without weight decay, leaves what the weights of each unit of that layer give along u exactly as it was initialised, so that adding a multiple of u to a later sample changes the unit by as much as it does in the untrained model.", "quantifier": "all models that begin with a fully connected layer or flatten and a fully connected layer, with any layers behind, all dimensions of samples, all directions, all losses, all optimizers without weight decay, all sequences of calls of train on samples orthogonal to the direction and of predict on any input", "why_tests_cant": "Which directions the data leave out depends on all the data, and that a linear combination of weights never changes is a statement about training runs of any length and about what the optimizer remembers.", "anchors": ["smart_dnn/SmartDNN/SmartDNN.impl.hpp: train, trainStep, updateWeights", "smart_dnn/Layers/FullyConnectedLayer.hpp: forward, backward, updateWeights", "smart_dnn/Layers/FlattenLayer.hpp: forward, backward", "smart_dnn/Optimizers/AdamOptimizer.hpp: optimize", "smart_dnn/Optimizers/RMSPropOptimizer.hpp: optimize", "smart_dnn/Optimizers/SGDOptimizer.hpp: optimize"]}
{"id": "C119", "title": "Signs of features, units and targets, and the zero of the target scale, make no difference", "statement": "Changing the sign of input features together with the signs of their weights in the first fully connected layer changes nothing: training prints the same losses and the trained models give the same answers to questions with the signs changed, for every loss and optimizer. With the squared error and a last fully connected layer, the same holds for the signs of the targets, and, without weight decay, for adding a constant to all targets and to the last biases: the predictions are mirrored and shifted in the same way for ever. Hidden tanh units can be mirrored (incoming weights, bias and outgoing weights negated) without any effect. As a consequence, a tanh unit that starts with only zeros is never trained.", "quantifier": "all well-shaped models with any layers around the dense layers in question, all weights, all choices of signs and shifts, all data, all numbers of epochs and calls of train, all three optimizers (with weight decay and penalties, except for the shift)", "why_tests_cant": "Two whole training runs are compared, of any length, on data of any values, including what the optimizers remember; a test compares two runs of one example up to a tolerance.", "anchors": ["smart_dnn/SmartDNN/SmartDNN.impl.hpp: train, trainStep, predict, updateWeights", "smart_dnn/Layers/FullyConnectedLayer.hpp: forward, backward, updateWeights", "smart_dnn/Activations/Tanh.hpp: forward, backward", "smart_dnn/Loss/MSELoss.hpp: compute, gradient", "smart_dnn/Optimizers/AdamOptimizer.hpp: optimize", "smart_dnn/Optimizers/RMSPropOptimizer.hpp: optimize", "smart_dnn/Optimizers/SGDOptimizer.hpp: optimize"]}
{"id": "C120", "title": "The outputs of a single dense layer are learned separately", "statement": "In a model with one fully connected layer, behind layers without parameters (flatten, pooling, dropout, activations) and in front of elementwise activations, what one output becomes does not depend on the other outputs. Two such models, compiled alike, that start with the same weights and bias for output j and are trained by any calls of train on the same inputs with targets that agree for output j, have the same weights and bias for output j afterwards and give the same answers for it to every question, however different the weights, biases and targets of the other outputs are. It holds for both losses and all three optimizers.", "quantifier": "all models with one dense layer as described, all initial parameters, all data, all other outputs' targets, all sequences of calls of train and numbers of epochs, both losses, all three optimizers with all options", "why_tests_cant": "Two whole training runs are compared that differ in unlimited ways in everything but one output; a test can only vary a few of the other targets.", "anchors": ["smart_dnn/SmartDNN/SmartDNN.impl.hpp: train, trainStep, predict, updateWeights", "smart_dnn/Layers/FullyConnectedLayer.hpp: forward, backward, updateWeights", "smart_dnn/Loss/MSELoss.hpp: gradient", "smart_dnn/Loss/CategoricalCrossEntropyLoss.hpp: gradient", "smart_dnn/Optimizers/AdamOptimizer.hpp: optimize", "smart_dnn/Optimizers/RMSPropOptimizer.hpp: optimize", "smart_dnn/Optimizers/SGDOptimizer.hpp: optimize"]}
{"id": "C121", "title": "Linear regression is linear in its targets and its initial parameters", "statement": "Take a model whose only layer with parameters is a fully connected layer at the end, compiled with the squared error and SGD with any options. Train it three times on the same inputs by the same calls of train: from first initial parameters on first targets, from second initial parameters on second targets, and from the combination a * first + b * second of the initial parameters on the same combination of the targets. Then the weights and the bias of the third model are a * first + b * second of those of the other two, and so is its answer to every question. In particular training on the average of two sets of targets gives the average of the two trained models, and what a change of the targets does to the answers depends neither on the targets nor on the initial parameters.", "quantifier": "all models as described with any layers without parameters in front, all initial parameters, all real a and b, all inputs and targets, all sequences of calls of train and numbers of epochs, all options of SGD (learning rate, momentum, dampening, weight decay, Nesterov)", "why_tests_cant": "It relates three whole training runs for all combinations and all data; a test can compare only single triples and only up to rounding.", "anchors": ["smart_dnn/SmartDNN/SmartDNN.impl.hpp: train, trainStep, predict, updateWeights", "smart_dnn/Layers/FullyConnectedLayer.hpp: forward, backward, updateWeights", "smart_dnn/Loss/MSELoss.hpp: gradient", "smart_dnn/Optimizers/SGDOptimizer.hpp: optimize"]}
{"id": "C122", "title": "Random numbers have the distributions their names promise", "statement": "getRand is uniform on [0, 1), getRandRange on [min, max); getXavierInit(n) is normal with mean 0 and variance 1/n, getHeInit(n) with variance 2/n; getHeRandRange stays in [min, max]. They are defined exactly for min <= max and n > 0, and what they return after setSeed(s) depends only on s and on the calls made since. Tensor::rand is uniform on [0, 1] and Tensor::randn normal.", "quantifier": "all engines, all distributions of the engine's state under which the standard library's numbers are uniform and standard normal, all arguments, all programs of calls, all shapes and elements of random tensors", "why_tests_cant": "Distributions cannot be seen in finitely many draws, and the histories before setSeed are unlimited.", "anchors": ["smart_dnn/RandomEngine.hpp: setSeed, getRand, getRandRange, getXavierInit, getHeInit, getHeRandRange", "smart_dnn/Tensor/TensorOperations.hpp: createRandom", "smart_dnn/Tensor/TensorFactory.hpp: rand, randn"]}
{"id": "C123", "title": "A new fully connected layer has no dead output and no two equal outputs", "statement": "With probability one, no output of a newly constructed FullyConnectedLayer is zero for all inputs, and no two of its outputs are equal for all inputs. So training can reach every hidden unit behind which there is ReLU.", "quantifier": "all numbers of inputs and outputs, all pairs of outputs, all batches of inputs, all engines and distributions of their states under which the normal numbers they give are independent and standard normal", "why_tests_cant": "Being zero or equal for all inputs is a statement about all inputs, and a probability cannot be read off finitely many constructions.", "anchors": ["smart_dnn/Layers/FullyConnectedLayer.hpp: FullyConnectedLayer, forward", "smart_dnn/Tensor/TensorOperations.hpp: createRandom", "smart_dnn/Tensor/TensorFactory.hpp: rand, zeros", "smart_dnn/RandomEngine.hpp: getHeRandRange"]}
