{"id": "C01", "title": "Tensor coordinates address distinct, in-range elements", "statement": "For a tensor of S samples, M maps, height H and width W, the address computed for (x, y, map, sample) is smaller than the element count whenever every coordinate is in range, two different in-range coordinates never share an address, and every address below the element count belongs to some in-range coordinate.", "quantifier": "all tensor shapes and all coordinates", "why_tests_cant": "Tests sample a handful of shapes; aliasing between two coordinates for one unusual shape silently corrupts data.", "anchors": ["include/cn24/util/Tensor.h: Tensor::Offset, Tensor::data_ptr, Tensor::elements"]}
{"id": "C02", "title": "A tensor written to a stream is read back bit for bit", "statement": "Serialize followed by Deserialize on the same bytes yields a tensor with the same four dimensions and bit-identical values, and leaves the read position exactly behind the record, whatever bytes follow it. A tensor without elements is read back as an empty tensor, again leaving the position behind its header.", "quantifier": "all tensors (dimensions below 2^64, element values arbitrary 32-bit patterns) and all trailing byte strings", "why_tests_cant": "A round trip on sample tensors does not cover every dimension value, NaN payloads or position bookkeeping in front of arbitrary followers.", "anchors": ["src/util/Tensor.cpp: Tensor::Serialize, Tensor::Deserialize", "src/util/Tensor.cpp: Tensor::Resize"]}
{"id": "C03", "title": "A tensor stream file yields exactly the tensors written to it", "statement": "Loading a file made of n serialized non-empty tensors gives exactly those n tensors in order. Loading a file that was cut off at any byte (a crash while writing) still gives every tensor that was completely written before the cut, in order and bit-identical.", "quantifier": "all lists of tensors and all cut points", "why_tests_cant": "The number of tensors and the crash offsets are unbounded; tests check one or two intact files.", "anchors": ["src/util/FloatTensorStream.cpp: FloatTensorStream::LoadFile", "src/util/Tensor.cpp: Tensor::Deserialize"]}
{"id": "C04", "title": "Compressing and decompressing a tensor gives back the same values", "statement": "Decompress(Compress(t)) has the shape of t and holds, at every position, a value that compares equal to the original; it is bit-identical whenever the tensor does not contain both +0 and -0.", "quantifier": "all tensors of any length and any 32-bit contents, including NaN and signed zero", "why_tests_cant": "Run lengths, escape bytes and run-length limits interact; only a proof covers every byte pattern and every run length.", "anchors": ["src/util/CompressedTensor.cpp: CompressedTensor::Compress, Decompress, CompressData, DecompressData"]}
{"id": "C05", "title": "Compression never writes outside its output buffer", "statement": "While compressing a tensor, no byte is written at or beyond the size of the temporary buffer that Compress allocates, and the reported compressed length is the number of bytes written.", "quantifier": "all tensors of any length and contents", "why_tests_cant": "A worst case depends on every byte of the data; a buffer overrun appears only for adversarial contents.", "anchors": ["src/util/CompressedTensor.cpp: CompressedTensor::Compress, CompressData"]}
{"id": "C06", "title": "Decompressing arbitrary bytes is memory safe", "statement": "Decompressing a compressed record whose bytes are arbitrary (a damaged or hostile file) either reproduces the announced number of elements or stops with an error; it never reads past the compressed bytes nor writes past the output tensor.", "quantifier": "all byte strings and all announced element counts", "why_tests_cant": "The space of damaged files is infinite and memory errors need not crash a test.", "anchors": ["src/util/CompressedTensor.cpp: DecompressData, CompressedTensor::Decompress"]}
{"id": "C07", "title": "A compressed stream file yields the tensors that were compressed into it", "statement": "A compressed tensor file written from a list of tensors is recognised as compressed by its first eight bytes and, read back sample by sample, delivers the same dimensions and values as the uncompressed tensors, for each index in the list and in the same order.", "quantifier": "all lists of non-empty single-sample tensors of fewer than 2^29 elements each, and all targets", "why_tests_cant": "Requires agreement of writer, dispatcher, reader and codec for every list.", "anchors": ["src/util/CompressedTensorStream.cpp", "src/util/TensorStream.cpp: TensorStream::FromFile", "src/util/CompressedTensor.cpp: Serialize, Deserialize", "tools/compressTensorStream.cpp"]}
{"id": "C08", "title": "Copying a sample changes only the target sample and pads with zeros", "statement": "For a source with at least one map, CopySample(source, i, target, j) succeeds exactly when both sample indices exist, the map counts agree and the target is at least as wide and high; on success the target sample j holds the source sample i in its top left corner and zeros elsewhere, and no other sample of the target changes; on failure by index or by shape nothing changes.", "quantifier": "all pairs of tensors, shapes and sample indices", "why_tests_cant": "Frame conditions (nothing else changes) and all shape combinations cannot be enumerated.", "anchors": ["src/util/Tensor.cpp: Tensor::CopySample, Tensor::CopyMap"]}
{"id": "C09", "title": "Transposing a tensor twice restores it", "statement": "Transpose exchanges width and height of every map of every sample so that the value at (x, y) moves to (y, x); applying it twice restores shape and contents.", "quantifier": "all tensors", "why_tests_cant": "Holds for non-square shapes, many maps and samples only if the index arithmetic is right everywhere.", "anchors": ["src/util/Tensor.cpp: Tensor::Transpose"]}
{"id": "C10", "title": "Maximum queries return the first position of the largest value", "statement": "Maximum(sample) and PixelMaximum(x, y, sample) return the smallest element (map) index whose value is the largest of that sample (pixel), provided some value is larger than the most negative finite number.", "quantifier": "all tensors, samples and pixel positions", "why_tests_cant": "Tie-breaking and the starting value matter only for particular value patterns.", "anchors": ["src/util/Tensor.cpp: Tensor::Maximum, Tensor::PixelMaximum"]}
{"id": "C11", "title": "Every tensor buffer is released at most once and never used after release", "statement": "For any sequence of tensor constructions, resizes, shadow creations, moves and destructions, no data buffer is released twice, and a tensor that owns a buffer can read it until it gives it up.", "quantifier": "all histories of tensor operations", "why_tests_cant": "Ownership bugs depend on the order of operations over an unbounded history.", "anchors": ["include/cn24/util/Tensor.h", "src/util/Tensor.cpp: Tensor::Tensor(Tensor&&), Shadow, Resize, DeleteIfPossible"]}
{"id": "C12", "title": "Statistics collector follows its recording protocol", "statement": "Whatever calls are made in whatever order, the collector only records updates between StartRecording and StopRecording after Initialize, the calls that do not fit the current state change nothing, and identifiers handed out by RegisterStat are consecutive and stay valid.", "quantifier": "all call sequences", "why_tests_cant": "The property is about every history of API calls.", "anchors": ["src/util/StatAggregator.cpp", "include/cn24/util/StatAggregator.h"]}
{"id": "C13", "title": "A generated statistic is the fold of its updates since the last reset", "statement": "The value passed to the sinks for a statistic is its output function applied to its initial value updated, in order, by exactly the values reported while recording since the last Reset (or Snapshot); every sink receives the same values.", "quantifier": "all call sequences and all statistic descriptors", "why_tests_cant": "Quantifies over all histories and all user-supplied functions.", "anchors": ["src/util/StatAggregator.cpp: Update, Reset, Snapshot, Generate"]}
{"id": "C14", "title": "CSV statistics rows have as many columns as the header", "statement": "In the CSV file of an experiment every data row has the same number of comma-separated fields as the header line, and statistics that are null produce an empty field at their own column, never shifting the others.", "quantifier": "all numbers of statistics and all null patterns", "why_tests_cant": "All lengths and null patterns.", "anchors": ["src/util/CSVStatSink.cpp"]}
{"id": "C15", "title": "Layer descriptors are accepted exactly when they follow the grammar", "statement": "IsValidDescriptor(s) is true exactly when s is a lower-case name optionally followed by a parenthesised, space separated list of key=value pairs with lower-case keys and values made of letters, digits and dots.", "quantifier": "all strings", "why_tests_cant": "Regular expressions accept or reject infinitely many strings.", "anchors": ["src/net/LayerFactory.cpp: LayerFactory::IsValidDescriptor"]}
{"id": "C16", "title": "Layer type and configuration are extracted from every valid descriptor", "statement": "For every valid descriptor the extracted layer type is the leading name and the extracted configuration is the text between the parentheses (empty if there is none); ConstructLayer returns a layer exactly for valid descriptors whose type is one of the nine known types.", "quantifier": "all strings", "why_tests_cant": "Infinitely many descriptors; greedy matching must not cross parentheses.", "anchors": ["src/net/LayerFactory.cpp: ExtractConfiguration, ExtractLayerType, ConstructLayer"]}
{"id": "C17", "title": "Seed injection always determines the seed", "statement": "InjectSeed(d, n) applied to a valid descriptor gives a valid descriptor of the same type in which reading the parameter seed gives n, all other parameters are unchanged, and injecting again with m gives the same as injecting m alone. Invalid descriptors are returned unchanged.", "quantifier": "all descriptors and seeds", "why_tests_cant": "Interaction of regular expressions with parameter names is unbounded.", "anchors": ["src/net/LayerFactory.cpp: InjectSeed", "src/util/ConfigParsing.cpp: ParseCountIfPossible"]}
{"id": "C18", "title": "Parameters are read from a configuration line by their own name", "statement": "Reading the parameter key from a line built of space separated key=value pairs returns the value given for that key and leaves the default untouched if the key is absent; other pairs in the line do not influence the result.", "quantifier": "all configuration lines and keys", "why_tests_cant": "Substring search can match inside other keys; only a proof covers all combinations of names.", "anchors": ["src/util/ConfigParsing.cpp: ParseStringParamIfPossible, ParseCountIfPossible, ParseKernelSizeIfPossible, ParseDatumParamIfPossible"]}
{"id": "C19", "title": "A forward pass runs every layer once, after the layers it reads from", "statement": "On an acyclic network graph FeedForward runs the layer of each node exactly once, and each node only after all nodes connected to its inputs; running it again repeats this.", "quantifier": "all finite acyclic graphs, node orders and connection lists", "why_tests_cant": "All graph shapes; an ordering error shows only for particular diamonds or node orders.", "anchors": ["src/net/NetGraph.cpp: FeedForward, NetGraph::PrepareNode"]}
{"id": "C20", "title": "A backward pass runs every layer once, after the layers that consume its output", "statement": "On an acyclic network graph BackPropagate runs each node exactly once and only after every node to which it is connected by a back-propagating connection, and enables the gradient of a layer exactly if one of its inputs needs it.", "quantifier": "all finite acyclic graphs, node orders and connection lists", "why_tests_cant": "All graph shapes.", "anchors": ["src/net/NetGraph.cpp: BackPropagate"]}
{"id": "C21", "title": "After initialisation no buffer receives gradients from two layers", "statement": "After Initialize every output buffer of a layer has at most one back-propagating consumer: where several layers read one buffer, a gradient accumulation node with one output per reader is inserted, every reader reads the same data as before and no other connection changes.", "quantifier": "all graphs", "why_tests_cant": "The rewriting touches connection lists of arbitrary length.", "anchors": ["src/net/NetGraph.cpp: NetGraph::Initialize", "src/net/GradientAccumulationLayer.cpp"]}
{"id": "C22", "title": "Saved parameters are restored exactly", "statement": "DeserializeParameters applied to the bytes produced by SerializeParameters of a network with the same layers gives every parameter tensor its saved shape and bit-identical values; loading with last_layer = k, k at least 1, only changes the parameters of the nodes up to and including number k, and loading a truncated file restores every parameter whose record is complete.", "quantifier": "all networks and all parameter contents", "why_tests_cant": "All numbers of layers and parameters, all values.", "anchors": ["src/net/NetGraph.cpp: SerializeParameters, DeserializeParameters"]}
{"id": "C23", "title": "A graph reported complete can be executed", "statement": "If IsComplete returns true then the graph has an input and an output node, each connection points to a node of the same graph and to an existing buffer, and a forward pass terminates.", "quantifier": "all graphs that can be built with AddNode", "why_tests_cant": "All graphs, including those whose connections leave the graph or form cycles.", "anchors": ["src/net/NetGraph.cpp: NetGraph::IsComplete, AddNode"]}
{"id": "C24", "title": "The error layer's deltas are the gradient of its loss", "statement": "After a forward pass of the error layer the deltas written for its first input are exactly the gradient of the loss it reports: for every perturbation h the loss changes by the scalar product of the deltas with h plus half the weighted squared norm of h. The loss is non-negative for non-negative weights and zero when prediction and label agree.", "quantifier": "all shapes, predictions, labels, weights and perturbations", "why_tests_cant": "Gradient checks compare a few values numerically with tolerance.", "anchors": ["src/net/ErrorLayer.cpp: FeedForward, CalculateLossFunction"]}
{"id": "C25", "title": "Gradient descent steps follow the momentum rule", "statement": "Each optimisation step with gradient descent changes every weight w by -(lr*delta + momentum*previous step), delta being the averaged gradient with L1 and L2 terms and the layer learning rate; the accumulated gradient is averaged over batch and sequential batch, and each weight of each parameter tensor is updated exactly once using its own previous step.", "quantifier": "all networks, step counts and settings", "why_tests_cant": "Offsets into the flat history buffers must line up for every combination of tensor sizes.", "anchors": ["src/net/Trainer.cpp: Trainer::ApplyGradients, Trainer::Epoch"]}
{"id": "C26", "title": "QuickProp treats all weights alike in the first iteration", "statement": "In the first iteration after a reset QuickProp applies the plain gradient step to every weight, since no previous gradient exists for any of them.", "quantifier": "all networks and gradients", "why_tests_cant": "A flag that flips during the loop affects all weights but the first.", "anchors": ["src/net/Trainer.cpp: Trainer::ApplyGradients"]}
{"id": "C27", "title": "Each training epoch visits every training sample exactly once", "statement": "The training samples delivered by the input layer, cut into consecutive groups of as many as the dataset has, are each a permutation of the whole training set, independent of the batch size and of the shuffles drawn.", "quantifier": "all dataset sizes, batch sizes, shuffles and numbers of batches", "why_tests_cant": "Shuffles and alignment of batches with epochs vary without bound.", "anchors": ["src/net/DatasetInputLayer.cpp: FeedForward"]}
{"id": "C28", "title": "A test run covers every test sample exactly once", "statement": "A test run with testing ratio 1 delivers each test sample exactly once in order; the positions of the last batches that have no sample left carry zero weight.", "quantifier": "all dataset sizes and batch sizes", "why_tests_cant": "Divisibility of sizes matters.", "anchors": ["src/net/DatasetInputLayer.cpp: FeedForward, SetTestingMode", "src/net/Trainer.cpp: Trainer::Test"]}
{"id": "C29", "title": "Dataset dimensions fit every sample", "statement": "The width and height announced by a tensor stream dataset are multiples of 64 and at least as large as every training and testing image, so that GetTrainingSample and GetTestingSample succeed for every index in range.", "quantifier": "all collections of training and testing tensors", "why_tests_cant": "Depends on the maximum over arbitrary lists.", "anchors": ["src/util/TensorStreamDataset.cpp: TensorStreamDataset::TensorStreamDataset"]}
{"id": "C30", "title": "Padding pixels never contribute to the loss", "statement": "A sample fetched from a tensor stream dataset has error weight zero at every pixel outside the original image and weight error_function(x, y) times class weight of its label inside; data and label outside are zero.", "quantifier": "all datasets, indices and image sizes", "why_tests_cant": "All image sizes relative to the padded size.", "anchors": ["src/util/TensorStreamDataset.cpp: GetTrainingSample, GetTestingSample"]}
{"id": "C31", "title": "Patch indices enumerate all patches", "statement": "In a patch dataset the indices below GetTrainingSamples (GetTestingSamples) correspond one to one to the pairs of a training (testing) image and a position at which a full patch fits; the sample delivered for an index is the patch at that position with the label of its centre pixel.", "quantifier": "all lists of image sizes and patch sizes", "why_tests_cant": "Index arithmetic over prefix sums of arbitrary lists.", "anchors": ["src/util/TensorStreamPatchDataset.cpp"]}
{"id": "C32", "title": "IM2COL lists the pixels under each kernel position", "statement": "After IM2COL the target holds, for every kernel element, sample and output position, the source pixel under that kernel element or zero when it lies in the padding.", "quantifier": "all shapes, kernel sizes, strides and paddings for which the sizes match", "why_tests_cant": "Five-fold nested index arithmetic for all parameters.", "anchors": ["src/math/TensorMath.cpp: TensorMath::IM2COL"]}
{"id": "C33", "title": "COL2IM is the adjoint of IM2COL", "statement": "For all images x and column matrices c the scalar product of IM2COL(x) with c equals that of x with COL2IM(c), so that the back-propagated input gradient of a convolution is correct for every image shape and padding.", "quantifier": "all shapes, kernel sizes, strides, paddings and values", "why_tests_cant": "Adjointness over all shapes cannot be tested; the border cases are exactly where it breaks.", "anchors": ["src/math/TensorMath.cpp: TensorMath::COL2IM, IM2COL"]}
{"id": "C34", "title": "The reference matrix product computes alpha*op(A)*op(B)+beta*C", "statement": "GEMM (and GEMV) without a BLAS library computes alpha*op(A)*op(B)+beta*C for every combination of transposition flags, leading dimensions and sample offsets, reads nothing of C when beta is zero, and changes nothing outside the addressed matrix.", "quantifier": "all sizes, flags, leading dimensions and values", "why_tests_cant": "Index arithmetic for all sizes and flags.", "anchors": ["src/math/TensorMath.cpp: TensorMath::GEMM, TensorMath::GEMV"]}
{"id": "C35", "title": "A convolution layer computes the convolution", "statement": "The forward pass of the convolution layer gives at every output position the bias plus the sum over kernel elements and the input maps of its group of weight times padded input pixel.", "quantifier": "all shapes, kernels, strides, paddings, groups, batch sizes and values", "why_tests_cant": "The composition of four index transformations must be right for all parameters.", "anchors": ["src/net/ConvolutionLayer.cpp: FeedForward", "src/math/TensorMath.cpp"]}
{"id": "C36", "title": "Convolution and pooling layers accept exactly the geometries that fit", "statement": "The convolution layer and the strided pooling layer create an output exactly when at least one kernel position fits into the (padded) input, and the output size is the number of positions; the plain max-pooling layer creates one exactly when its regions tile the image, with one output per region.", "quantifier": "all input, kernel, stride and padding sizes", "why_tests_cant": "Truncating signed division errs only for special size combinations.", "anchors": ["src/net/ConvolutionLayer.cpp: CreateOutputs, Connect", "src/net/AdvancedMaxPoolingLayer.cpp: CreateOutputs", "src/net/MaxPoolingLayer.cpp: CreateOutputs"]}
{"id": "C37", "title": "Swapping samples and maps twice is the identity", "statement": "SMS moves the value of (sample s, map m) to (sample m, map s) and applying it twice restores the tensor contents.", "quantifier": "all tensors", "why_tests_cant": "All shapes.", "anchors": ["src/math/TensorMath.cpp: TensorMath::SMS"]}
{"id": "C38", "title": "Down- and upsampling are adjoint", "statement": "DOWN writes factor times the sum over each region and UP writes factor times the replicated value; the scalar products satisfy <DOWN x, y> = <x, UP y> for equal factors, so the upscale layer's backward pass is the gradient of its forward pass, and DOWN after UP multiplies by the region size.", "quantifier": "all shapes, region sizes and values", "why_tests_cant": "Algebraic law over all shapes.", "anchors": ["src/math/TensorMath.cpp: TensorMath::DOWN, TensorMath::UP", "src/net/UpscaleLayer.cpp", "src/net/InputDownSamplingLayer.cpp"]}
{"id": "C39", "title": "Max-pooling outputs region maxima and returns each gradient to its maximum", "statement": "Each output of the max-pooling layer is the largest value of its region and the backward pass adds the delta of each output to exactly one input position, which lies in the region and holds the maximum, all other input deltas being zero.", "quantifier": "all shapes, region sizes and input values", "why_tests_cant": "All value patterns including ties and non-finite values.", "anchors": ["src/net/MaxPoolingLayer.cpp"]}
{"id": "C40", "title": "Strided max-pooling gradients account for every overlapping window", "statement": "In the overlapping (strided) pooling layer the delta of an input is the sum of the deltas of exactly those outputs whose recorded maximum is that input.", "quantifier": "all shapes, region sizes, strides and values", "why_tests_cant": "The window bounds are computed by integer divisions that must be right for all sizes.", "anchors": ["src/net/AdvancedMaxPoolingLayer.cpp"]}
{"id": "C41", "title": "Concatenation and sum layers move data and gradients without loss", "statement": "The concatenation layer's output holds the maps of the first input followed by those of the second and its backward pass splits the delta the same way; the sum layer outputs the element-wise sum and copies the delta to both inputs.", "quantifier": "all shapes and values", "why_tests_cant": "All shapes.", "anchors": ["src/net/ConcatenationLayer.cpp", "src/net/SumLayer.cpp"]}
{"id": "C42", "title": "The resize layer embeds the image and crops the gradient", "statement": "The resize layer places the input at offset (border/2) in a zero image and its backward pass reads exactly that window, which is the adjoint operation.", "quantifier": "all shapes, borders and values", "why_tests_cant": "All shapes and border sizes, odd ones included.", "anchors": ["src/net/ResizeLayer.cpp"]}
{"id": "C43", "title": "Confusion matrix totals are consistent", "statement": "After any number of batches the entries of the confusion matrix add up to the total weight of all counted pixels, column sums equal the per-class weights, the diagonal adds up to the correct weight, and the reported overall and average rates lie between 0 and 100 percent for non-negative weights.", "quantifier": "all batch sequences, predictions, labels and weights", "why_tests_cant": "Invariant over all histories.", "anchors": ["src/net/ConfusionMatrixLayer.cpp"]}
{"id": "C44", "title": "Binary statistics partition the weight at every threshold", "statement": "For every threshold true/false positives/negatives add up to the total weight seen; raising the threshold never increases the positives; the reported F1 threshold is the best of those with a defined F1 value.", "quantifier": "all batch sequences, predictions, labels, weights and threshold counts", "why_tests_cant": "Invariant over all histories; the undefined cases occur only for particular data.", "anchors": ["src/net/BinaryStatLayer.cpp"]}
{"id": "C45", "title": "Patches cut from an image line up with their labels", "statement": "The patch extracted for pixel (x, y) is centred at that pixel with mirrored borders, and the label extracted for the same index is the label of the pixel at the patch centre.", "quantifier": "all image sizes, patch sizes and pixels", "why_tests_cant": "Off-by-one differences appear in all images but are invisible on smooth label maps.", "anchors": ["src/util/Segmentation.cpp: ExtractPatches, ExtractLabels"]}
{"id": "C46", "title": "Local response normalisation writes every output pixel", "statement": "The forward pass of the normalisation layer computes every output pixel from its own input pixel divided by a power of one plus the scaled mean square of its window clipped to the image.", "quantifier": "all shapes, window sizes and methods", "why_tests_cant": "Non-square images behave differently from the square ones used in tests.", "anchors": ["src/net/LocalResponseNormalizationLayer.cpp"]}
{"id": "C47", "title": "Colouring an output shows the class with the highest score", "statement": "For a dataset with several classes, Colorize paints each pixel in the colour of the class with the highest network output at that pixel.", "quantifier": "all network outputs", "why_tests_cant": "Depends on the sign of all scores.", "anchors": ["src/util/Colorize.cpp: Dataset::Colorize"]}
{"id": "C48", "title": "Gradient checks leave the network unchanged", "statement": "After a gradient check every parameter of the network has the value it had before, whatever the losses were, and exactly every (skip+1)-th weight was probed with a positive and a negative offset.", "quantifier": "all networks, parameters and skip values", "why_tests_cant": "All networks.", "anchors": ["src/util/GradientTester.cpp"]}
{"id": "C49", "title": "Activation layers propagate the derivative of their forward function", "statement": "For the sigmoid, tanh and rectifier layers the value written by the backward pass is the incoming delta times the derivative of the function computed by the forward pass (except at the kink of the rectifier); sigmoid outputs lie in (0,1), tanh outputs in (-1,1).", "quantifier": "all real inputs and deltas", "why_tests_cant": "Holds for all real numbers; numerical checks have tolerance.", "anchors": ["src/net/ActivationFunctions.cpp"]}
{"id": "C50", "title": "A gradient accumulation layer adds up the deltas of its readers", "statement": "The backward pass of the gradient accumulation layer sets each input delta to the sum of the corresponding deltas of all its outputs and forwards the data unchanged.", "quantifier": "all shapes, output counts and values", "why_tests_cant": "All numbers of readers.", "anchors": ["src/net/GradientAccumulationLayer.cpp"]}
{"id": "C51", "title": "The parallel loops give the same result under every schedule", "statement": "Loops marked for parallel execution write disjoint parts of their outputs, so every interleaving of their iterations gives the result of the sequential loop.", "quantifier": "all schedules (interleavings of iterations) and shapes", "why_tests_cant": "The number of schedules is exponential and races are rarely observed.", "anchors": ["src/net/MaxPoolingLayer.cpp", "src/net/ResizeLayer.cpp", "src/net/GradientAccumulationLayer.cpp", "src/math/TensorMath.cpp"]}
{"id": "C52", "title": "Host and device copies of a tensor never go stale", "statement": "For every sequence of moves, host writes and device writes made through the tensor interface, a read on either side after the corresponding move returns the last value written on any side, unless the caller asked for the copy to be skipped.", "quantifier": "all sequences of MoveToGPU, MoveToCPU, reads and writes, on tensors and their shadows", "why_tests_cant": "All histories.", "anchors": ["src/util/Tensor.cpp: Tensor::MoveToGPU, Tensor::MoveToCPU"]}
{"id": "C53", "title": "Learning rate decays as configured", "statement": "The learning rate of iteration i of epoch e is base*(1+gamma*(e*n+i))^(-exponent), it never increases with the iteration for non-negative gamma and exponent and starts at the base rate.", "quantifier": "all settings and iteration numbers", "why_tests_cant": "All iteration counts.", "anchors": ["src/net/Trainer.cpp: Trainer::CalculateLR"]}
{"id": "C54", "title": "The localised KITTI error weight is bounded", "statement": "For every pixel of every image the KITTI error function returns a weight between 0.1275 and 24.99.", "quantifier": "all pixel positions and image sizes", "why_tests_cant": "All image sizes and positions.", "anchors": ["src/util/KITTIData.cpp: KITTIData::LocalizedError"]}
{"id": "C55", "title": "Softmax outputs are probabilities", "statement": "The softmax layer's outputs for one sample are positive and add up to one over all of its elements.", "quantifier": "all shapes and values", "why_tests_cant": "All shapes and values.", "anchors": ["src/net/ActivationFunctions.cpp: SoftmaxLayer::FeedForward"]}
{"id": "C56", "title": "A configured network keeps stack discipline and produces full-size outputs", "statement": "Reading a network description never uses more sum/concatenation stack entries than exist, the computed receptive field is the size of input that determines one output, and in fully convolutional mode the output has the size of the input.", "quantifier": "all network descriptions", "why_tests_cant": "All sequences of layers.", "anchors": ["src/factory/ConfigurableFactory.cpp"]}
{"id": "C57", "title": "The convolution layer computes exact gradients", "statement": "After a forward and a backward pass of a convolution layer, the weight, bias and input gradients are the derivatives of the scalar product of the output with the incoming delta: for any other weights, bias or image, the change of that scalar product equals the scalar product of the change with the gradient.", "quantifier": "all geometries (kernel, stride, padding, groups), shapes, values and deltas", "why_tests_cant": "Numerical gradient checks have tolerances and cover a few geometries; the statement is an identity over all values.", "anchors": ["src/net/ConvolutionLayer.cpp: ConvolutionLayer::FeedForward, ConvolutionLayer::BackPropagate", "src/math/TensorMath.cpp: TensorMath::COL2IM"]}
{"id": "C58", "title": "The spatial prior layer adds relative coordinates", "statement": "The output of the spatial prior layer has two more maps than its input: map 0 holds x/width, map 1 holds y/height and the other maps are those of the input; the backward pass hands the deltas of these maps back unchanged.", "quantifier": "all shapes, values and deltas", "why_tests_cant": "All shapes and values; a mistake in the map offset only shows for particular map counts.", "anchors": ["src/net/SpatialPriorLayer.cpp: FeedForward, BackPropagate"]}
{"id": "C59", "title": "Up-scaling replicates, down-sampling averages", "statement": "The up-scaling layer copies each input pixel to all pixels of its region and its backward pass, the sum of the deltas of the region, is the adjoint; the input down-sampling layer outputs the mean of each region.", "quantifier": "all shapes, region sizes and values", "why_tests_cant": "All shapes, regions and values.", "anchors": ["src/net/UpscaleLayer.cpp", "src/net/InputDownSamplingLayer.cpp"]}
{"id": "C60", "title": "Initialisation connects every layer once, in dependency order", "statement": "Initialize creates the outputs of each layer and connects it exactly once, after the layers it reads from, and leaves layers alone that are already initialised; InitializeWeights tells each layer exactly once which layers consume its output, after those layers themselves.", "quantifier": "all finite acyclic graphs, node orders and connection lists", "why_tests_cant": "All graph shapes and node orders.", "anchors": ["src/net/NetGraph.cpp: Initialize, InitializeNode, InitializeWeights"]}
{"id": "C61", "title": "The error layer only accepts inputs it can process", "statement": "Whenever the error layer accepts its three inputs (prediction, label, weight), forward pass and loss are defined: no element outside an input is read.", "quantifier": "all triples of input shapes", "why_tests_cant": "The check must be right for every combination of shapes, not only those of the shipped networks.", "anchors": ["src/net/ErrorLayer.cpp: CreateOutputs, Connect, FeedForward, CalculateLossFunction"]}
{"id": "C62", "title": "Clearing one sample changes exactly that sample", "statement": "Clear with a sample index sets every element of that sample to the given value and leaves all other samples as they were; without an index every element is set.", "quantifier": "all tensors, values and sample indices", "why_tests_cant": "All shapes and indices; an error in the range only shows when other samples are non-zero.", "anchors": ["src/util/Tensor.cpp: Tensor::Clear"]}
{"id": "C63", "title": "Loss sampling keeps or drops whole 12x12 blocks", "statement": "When loss sampling is enabled, the error weights of each 12x12 block of the label are either all kept or all set to zero (blocks at the border are cut), the blocks depend on one random draw each, and weights outside the sample are not changed. With a probability of 1 everything is kept.", "quantifier": "all label sizes, probabilities and random draws", "why_tests_cant": "Border blocks exist only for sizes not divisible by 12 and the draws are random.", "anchors": ["src/net/DatasetInputLayer.cpp: FeedForward"]}
{"id": "C64", "title": "Local response normalisation back-propagates its exact gradient", "statement": "After a forward pass, the backward pass of the normalisation layer writes to every input delta the partial derivative, with respect to that input element, of the sum of all outputs weighted with the incoming deltas.", "quantifier": "all shapes, window sizes, methods, scales and exponents, inputs and deltas", "why_tests_cant": "Numerical gradient checks sample a few weights of square images and have a tolerance.", "anchors": ["src/net/LocalResponseNormalizationLayer.cpp: BackPropagate"]}
{"id": "C65", "title": "A training pass leaves the gradient of the loss in every parameter", "statement": "After a forward and a backward pass over a network of layers that each back-propagate exactly, the gradient of every parameter is the partial derivative of the sum of all losses with respect to it, also when outputs are read by several layers or several times, for every order in which nodes were added and whatever the buffers held before.", "quantifier": "all acyclic networks, wirings, node orders, layers, parameters, inputs and previous buffer contents", "why_tests_cant": "A gradient check compares a few weights of a few networks with a tolerance; shared outputs, skip connections and stale buffers give unboundedly many cases.", "anchors": ["src/net/NetGraph.cpp: Initialize, FeedForward, BackPropagate", "src/net/GradientAccumulationLayer.cpp", "include/cn24/net/Layer.h"]}
{"id": "C66", "title": "The HMAX activation layer trains its two weights on the gradient", "statement": "After a forward and a backward pass, the layer that computes a sigmoid with a trained slope and offset has the partial derivatives of the loss in its input deltas and in the deltas of slope and offset.", "quantifier": "all inputs, weights, regulariser settings, local learning rates and incoming deltas", "why_tests_cant": "Numerical gradient checks sample a few weights and have a tolerance; regulariser, local learning rate and incoming deltas interact.", "anchors": ["src/net/HMaxActivationFunction.cpp", "include/cn24/net/HMaxActivationFunction.h"]}
{"id": "C67", "title": "Image files are loaded and stored faithfully or rejected", "statement": "Loading a PNG or JPEG file gives a tensor of its size and channels with every sample scaled to [0,1]; storing a loaded 8-bit RGB image as PNG reproduces its pixels exactly, and storing any RGB image with values in [0,1] loses less than 1/254 per value. What cannot be loaded or stored is reported.", "quantifier": "all images, sizes, channel counts, bit depths, file names and tensors", "why_tests_cant": "Every byte value, every rounding of single precision and every combination of format properties would have to be tried.", "anchors": ["src/util/PNGUtil.cpp: LoadFromStream, WriteToStream", "src/util/JPGUtil.cpp: LoadFromFile, WriteToFile", "src/util/Tensor.cpp: LoadFromFile, WriteToFile", "include/cn24/util/Config.h: DATUM_FROM_UCHAR, DATUM_FROM_USHORT, UCHAR_FROM_DATUM"]}
{"id": "C68", "title": "Lists of image files give the listed images and exact class labels", "statement": "Loading a list of images and a list of label images gives, in order, one image and one label for every pair of files of the same size; copying a label marks in each class map exactly the pixels that have the colour of the class, copying an image copies its values; nothing else of the target changes, and success or failure is returned.", "quantifier": "all lists, directories, image contents and sizes, class colours, target tensors and histories of loads", "why_tests_cant": "List lengths, blank lines, colours and image formats combine without bound; labels are compared as rounded floating-point numbers.", "anchors": ["src/util/ListTensorStream.cpp: LoadFile, LoadFiles, CopySample, GetWidth, GetHeight, GetMaps, GetSamples, GetTensorCount", "src/util/TensorStream.cpp: FromFile"]}
{"id": "C69", "title": "A dataset description is read as written", "statement": "Creating a dataset from a description gives exactly the declared classes, names, colours, weights, error function and files, whatever the order of the settings and whatever the class names look like; a description that lacks a name or a colour for a class is refused, and the training and testing data come from the files named for them.", "quantifier": "all descriptions: any number of classes, any names, colours, weights and comments, any order of settings, and any texts that are accepted", "why_tests_cant": "Descriptions are unbounded texts; section lengths depend on earlier lines, and lines inside sections may look like settings.", "anchors": ["src/util/TensorStreamDataset.cpp: CreateFromConfiguration", "src/util/TensorStreamPatchDataset.cpp: CreateFromConfiguration", "include/cn24/util/ConfigParsing.h"]}
{"id": "C70", "title": "A patch dataset holds the images of the files named for training and testing", "statement": "Creating a patch dataset loads every image with its label, bit-identical and in the order of the files: the training images from the training file and the testing images from the testing file; a file with an image that has no label is refused.", "quantifier": "all descriptions, file contents, image sizes and counts, with and without memory mapping", "why_tests_cant": "It must hold for every sequence of record sizes; the position of every record depends on all earlier ones, and headers and contents come from two different handles of the file.", "anchors": ["src/util/TensorStreamPatchDataset.cpp: TensorStreamPatchDataset, CreateFromConfiguration", "src/util/Tensor.cpp: Deserialize"]}
{"id": "C71", "title": "Training settings are the ones the description states", "statement": "Reading the training settings of a network description gives every setting the value of the last line that sets it and its default if no line does, wherever those lines stand; lines that describe layers and comments never change a setting, and settings never change the layers. A line that is not exactly a setting is refused or ignored.", "quantifier": "all descriptions made of setting lines, layer lines, comments and other lines in any order, all previous settings, all conversions of text to numbers", "why_tests_cant": "Settings and layers share one text with keywords matched as prefixes; order, repetition and unknown lines give unboundedly many texts.", "anchors": ["src/factory/ConfigurableFactory.cpp:ConfigurableFactory::InitOptimalSettings", "src/util/ConfigParsing.cpp:ParseDatumIfPossible", "src/util/ConfigParsing.cpp:ParseUIntIfPossible", "src/util/ConfigParsing.cpp:ParseStringIfPossible"]}
{"id": "C72", "title": "A training session depends only on what it trains", "statement": "Testing never influences training: for every sequence of commands, the session without its test commands ends with the same parameters, epoch and trainer, and goes on with the same training samples. Training in several commands is training in one. Each training epoch (or command) and each test writes exactly one row, with its mode, its epoch and its number of iterations, and the loss of a test is the average of its samples' losses.", "quantifier": "all sequences of train, test, set epoch, reset and load commands, all numbers of epochs, all networks, settings, datasets, random number generators and clocks, with or without a second network for testing", "why_tests_cant": "The claim compares two whole histories of unbounded length through the layer that draws the samples, the trainer and the statistics.", "anchors": ["src/net/Trainer.cpp:Trainer::Train", "src/net/Trainer.cpp:Trainer::Test", "src/net/Trainer.cpp:Trainer::Epoch", "include/cn24/net/Trainer.h:Trainer::SetEpoch", "tools/trainNetwork.cpp:parseCommand", "src/net/DatasetInputLayer.cpp:DatasetInputLayer::SetTestingMode"]}
{"id": "C73", "title": "The network for testing shares every parameter of the trained one", "statement": "When a description asks for training with patches, a second network for whole images is built from the same description. Whenever the first one can be built, so can the second, and both have the same parameters: as many, in the same order, with the same shapes and belonging to the same layers. So every parameter of the second network becomes the memory of the parameter of the first one at the same position, nothing outside the two lists is accessed, and sharing again after `reset` or `load` changes nothing.", "quantifier": "all descriptions (arbitrary lines), all numbers of classes, all sizes of patches and images with the same numbers of channels", "why_tests_cant": "The claim relates two networks built in different ways from one description of arbitrary length; tests try a few descriptions.", "anchors": ["tools/trainNetwork.cpp:main", "src/factory/ConfigurableFactory.cpp:ConfigurableFactory::AddLayers", "src/factory/ConfigurableFactory.cpp:ConfigurableFactory::ConfigurableFactory", "src/net/NetGraph.cpp:NetGraph::GetParameters", "src/util/Tensor.cpp:Tensor::Shadow"]}
{"id": "C74", "title": "The commands of the training tool do what the help says", "statement": "Every command of the help text, with its options in any order, is read as documented. A script carries out its commands in order up to the first `quit`, with or without a line feed at the end; at the prompt only a line that is exactly `q` or `quit` ends the program. After `save file=F` and any commands that do not write `F` again, `load file=F` restores every parameter bit by bit; with `last_layer=k` the later nodes keep theirs.", "quantifier": "all documented commands with arbitrary names and numbers below 2^31, all scripts and inputs of any length, all states of the program, all lines between saving and loading", "why_tests_cant": "Names, numbers, the order of options and the history between saving and loading are unbounded.", "anchors": ["tools/trainNetwork.cpp:parseCommand", "tools/trainNetwork.cpp:main", "tools/trainNetwork.cpp:help", "include/cn24/util/ConfigParsing.h:ParseCountIfPossible", "include/cn24/util/ConfigParsing.h:ParseStringParamIfPossible", "src/net/NetGraph.cpp:NetGraph::SerializeParameters", "src/net/NetGraph.cpp:NetGraph::DeserializeParameters"]}
{"id": "C75", "title": "Classifying an image file shows the winning class of every pixel", "statement": "`classifyImage` loads an image, pads its width and height to the next multiple of eight, gives the network the image with zeros around it and the relative coordinates of the pixels, and writes an image of the original size in which every pixel has exactly the colour of the class with the highest output of the network at that pixel. No memory outside the tensors is accessed and no other file changes.", "quantifier": "all images of any size and number of channels, all networks whose output has the size of their input, all numbers of classes from two on and all colours", "why_tests_cant": "Image sizes are unbounded, and the memory error depends on their remainder modulo eight and on their aspect ratio.", "anchors": ["tools/classifyImage.cpp:main", "src/util/Colorize.cpp:Dataset::Colorize", "src/util/Tensor.cpp:Tensor::CopySample", "src/util/Tensor.cpp:Tensor::LoadFromFile", "src/util/Tensor.cpp:Tensor::WriteToFile", "src/util/PNGUtil.cpp:PNGUtil::WriteToStream"]}
{"id": "C76", "title": "Converting, compressing and shortening tensor files keeps the data", "statement": "`makeTensorStream` and `makeCompressedTensorStream` write exactly the tensors that a `list:` data set over the same files provides, in the same order, so that training on the file is training on the list. `compressTensorStream` writes a file that reads as the same tensors and changes no other file. `tensorStreamTool` leaves exactly the first n tensors of a file bit for bit, repairs files that were cut off, and never loses tensors that are to be kept, also when it is interrupted. No memory outside the tensors is accessed and no file is dropped silently.", "quantifier": "all lists of images of all sizes, all tensors, all numbers of tensors, all points at which a file was cut off and all moments at which the tool is interrupted", "why_tests_cant": "The files, their sizes, the points of damage and the moments of interruption are unbounded; the tools have no tests at all.", "anchors": ["tools/makeTensorStream.cpp:main", "tools/makeCompressedTensorStream.cpp:main", "tools/compressTensorStream.cpp:main", "tools/tensorStreamTool.cpp:main", "src/util/ListTensorStream.cpp:ListTensorStream::CopySample", "src/util/FloatTensorStream.cpp:FloatTensorStream::LoadFile", "src/util/CompressedTensorStream.cpp:CompressedTensorStream::LoadFile"]}
{"id": "C77", "title": "The CSV file of an experiment holds its reported rows", "statement": "For every history of calls, the CSV file of an experiment holds the header and exactly the rows reported while the experiment was selected, in order; each row has, for every statistic, the value computed from what was recorded since the last reset; selecting other experiments, reporting to them or killing the program between or during calls loses none of these rows, and starting the program again or selecting the experiment again keeps them.", "quantifier": "all call sequences of the collector with a CSV sink, all experiment names, all previous contents of the disk, all points at which the program is killed", "why_tests_cant": "A history of selections, recordings and reports is unbounded, and the loss of rows shows only for particular repetitions and crash points.", "anchors": ["src/util/CSVStatSink.cpp: CSVStatSink::Process, CSVStatSink::SetCurrentExperiment", "include/cn24/util/CSVStatSink.h: CSVStatSink", "src/util/StatAggregator.cpp: StatAggregator::Initialize, SetCurrentExperiment, Generate, Snapshot"]}
{"id": "C78", "title": "The class statistics of a dataset count its pixels", "statement": "For every dataset, the statistics tool prints two tables. The one ignoring the class weights gives for each class the number of its training pixels, weighted by position only; the other one multiplies that number by the class weight once. Padding, the previous contents of memory and samples that cannot be loaded count nothing. In each table the parts add up to 1, and multiplying the class weights by the printed corrections makes all classes that occur count equally.", "quantifier": "all datasets (numbers and sizes of images, labels, class weights, weighting functions), all initial contents of memory", "why_tests_cant": "The counts range over all pixels of all images, and the errors show only for class weights other than 1 or damaged samples.", "anchors": ["tools/tensorStreamStats.cpp: main", "src/util/TensorStreamDataset.cpp: TensorStreamDataset::GetTrainingSample", "src/util/Tensor.cpp: Tensor::PixelMaximum"]}
{"id": "C79", "title": "The interactive tensor tool does what is typed and keeps the rest of the file", "statement": "Started with a file and a number, the tool holds exactly the tensor with that number. Every sequence of commands, however the words are separated by white space, changes the tensor and the files as the commands say and in that order: `size` and `help` change nothing, `transpose` exchanges x and y, `reshape` keeps the values and replaces the sizes if the number of elements agrees, `write` stores the tensor in the file so that it is read again bit for bit, `bin` writes one byte per value, for three maps in the order of pixels. The tool ends at `q`, `quit` or the end of the input, reports what it cannot do, and writing one tensor back keeps the others of the file.", "quantifier": "all files, tensor numbers, tensors, command sequences, spellings of the input and rounds of the loop", "why_tests_cant": "The effect of a session depends on its whole history and on the exact bytes of the input and of the file; a session without end cannot be observed by a test.", "anchors": ["tools/tensorTool.cpp: main, parseCommand", "src/util/Tensor.cpp: Tensor::Deserialize, Tensor::Serialize, Tensor::Reshape, Tensor::Transpose", "include/cn24/util/Tensor.h: Tensor"]}
{"id": "C80", "title": "The OpenCL build computes what the host build computes", "statement": "Whichever order the work items of a kernel run in, they stay in their buffers, do not race, and leave the result that the host code computes for the same tensors: filling a tensor or one sample of it, exchanging samples and maps, scaling down and up, rearranging an image into columns and back, sigmoid and hyperbolic tangent, and both kinds of max pooling, forward and backward.", "quantifier": "all tensors, sizes, kernel, stride and padding geometries, region sizes, values and schedules of the work items", "why_tests_cant": "Device and host results are only compared on the machines and sizes at hand; a wrong work size or a write outside a buffer often stays unnoticed on a device, and the order of the work items cannot be controlled.", "anchors": ["kernels/setValue.cl: SET_VALUE", "kernels/sms.cl: SMS", "kernels/scaling.cl: DOWN, UP", "kernels/im2col.cl: IM2COL, COL2IM", "kernels/nonLinearFunctions.cl", "kernels/maximumPooling.cl", "kernels/advmaximumPooling.cl", "src/math/TensorMath.cpp: TensorMath::SETSAMPLE, TensorMath::SMS, TensorMath::DOWN, TensorMath::UP, TensorMath::IM2COL, TensorMath::COL2IM", "src/net/ActivationFunctions.cpp", "src/net/MaxPoolingLayer.cpp: MaxPoolingLayer::FeedForward, MaxPoolingLayer::BackPropagate", "src/net/AdvancedMaxPoolingLayer.cpp: AdvancedMaxPoolingLayer::FeedForward, AdvancedMaxPoolingLayer::BackPropagate"]}
{"id": "C81", "title": "With OpenCL a network computes what it computes without", "statement": "In a build with OpenCL, some layers work on the device and some on the host, and tensors are moved between the two memories only where the code thinks it necessary, sometimes without their contents. Whatever sequence of forward and backward passes, loss functions, parameter updates, saving and loading is run on a network, every tensor has the contents it has in a build without OpenCL, on the side where it is used next.", "quantifier": "all networks, mixtures of layers on device and host, numbers of groups, sharing by shadow tensors, builds with and without clBLAS, sequences of steps of any length, and starting places and contents of both memories", "why_tests_cant": "A missing or superfluous move shows only if a layer of one kind follows a layer of the other kind and the stale copy differs from the new one; the combinations of layers, orders and starting places are unbounded, and tests do not run on a device.", "anchors": ["src/net/NetGraph.cpp: NetGraph::PrepareNode, NetGraph::FeedForward, NetGraph::BackPropagate, NetGraph::AggregateLoss", "src/math/TensorMath.cpp: TensorMath::GEMM, TensorMath::GEMV, TensorMath::IM2COL, TensorMath::COL2IM, TensorMath::SMS, TensorMath::DOWN, TensorMath::UP", "src/util/Tensor.cpp: Tensor::MoveToGPU, Tensor::MoveToCPU, Tensor::Shadow", "src/net/ConvolutionLayer.cpp: ConvolutionLayer::FeedForward, ConvolutionLayer::BackPropagate", "src/net/DatasetInputLayer.cpp: DatasetInputLayer::FeedForward", "src/net/ResizeLayer.cpp", "src/net/UpscaleLayer.cpp", "src/net/InputDownSamplingLayer.cpp", "src/net/MaxPoolingLayer.cpp", "src/net/AdvancedMaxPoolingLayer.cpp", "src/net/ActivationFunctions.cpp", "src/net/GradientAccumulationLayer.cpp: GradientAccumulationLayer::CreateOutputs", "src/net/Trainer.cpp: Trainer::Epoch, Trainer::ApplyGradients"]}
{"id": "C82", "title": "A layer made from a descriptor has the parameters written in it", "statement": "A descriptor names a layer type and gives parameters as name=value. The layer made from it has, for every parameter, the value written under its name, or the documented default if the name does not occur; the order of the parameters, parameters the layer does not know, and the seed put in by the library have no effect on the others; an unknown type gives no layer.", "quantifier": "all layer types, all lists of parameters in any order and number, known and unknown, with any values of the right kind, and all seeds", "why_tests_cant": "Parameters are found by searching the text for their names, so whether one is read correctly depends on all the others and their order; the combinations of names, values and orders are unbounded.", "anchors": ["src/net/LayerFactory.cpp: LayerFactory::ConstructLayer, LayerFactory::InjectSeed", "src/net/ConvolutionLayer.cpp: ConvolutionLayer::ConvolutionLayer(std::string)", "src/net/MaxPoolingLayer.cpp: MaxPoolingLayer::MaxPoolingLayer(std::string)", "src/net/AdvancedMaxPoolingLayer.cpp: AdvancedMaxPoolingLayer::AdvancedMaxPoolingLayer(std::string)", "src/net/GradientAccumulationLayer.cpp", "src/net/ResizeLayer.cpp: ResizeLayer::ResizeLayer(std::string)", "src/net/HMaxActivationFunction.cpp: HMaxActivationFunction::HMaxActivationFunction(std::string)", "src/util/ConfigParsing.cpp"]}
{"id": "C83", "title": "A line of a network description adds the layer it names, with the parameters written in it", "statement": "Each line of a network description that begins with a question mark names a layer and gives parameters as name=value. It adds exactly the layers it stands for, connected to what came before, with every parameter as written or its documented default; (o) stands for the number of classes, a fully connected layer for a convolution with kernels of one value; the output gets the activation for the number of classes, is scaled to the size of the image when whole images are used, and gets a loss of the weight given; meaningless parameters are refused with an error.", "quantifier": "all layer types, all lists of parameters in any order and number, known and unknown, all states of a description already read, all numbers of classes", "why_tests_cant": "The text of a line is edited and searched for names, so what a parameter means depends on everything else in the line and on everything before it; the combinations are unbounded.", "anchors": ["src/factory/ConfigurableFactory.cpp: ConfigurableFactory::AddLayers", "src/util/ConfigParsing.cpp: ParseCountIfPossible, ParseKernelSizeIfPossible, ParseDatumParamIfPossible, ParseStringParamIfPossible", "src/net/ConvolutionLayer.cpp: ConvolutionLayer::ConvolutionLayer"]}
{"id": "C84", "title": "A network trained on patches computes, for every pixel of a whole image, what it computes for the patch there", "statement": "A network description in patch mode yields two networks: one for patches, used in training, and one for whole images. With the same parameters, the output of the second has the size of the image, and its value at every pixel is the single output value of the first one, applied to the patch cut from the image (extended by zeros) at that pixel rounded down to the reduction of the network, less half of its border. In particular the value learnt for a training sample is the value at the pixel whose label the sample holds.", "quantifier": "all chains of convolutions, fully connected layers, poolings and activations, with all sizes, steps and parameters, all images whose size is a multiple of the reduction, all pixels, all batches, all positions of patches, every earlier contents of the output buffers", "why_tests_cant": "The two networks have different layers and different image sizes; that they agree must hold for all networks, all weights, all images and all pixels, which examples cannot cover.", "anchors": ["src/factory/ConfigurableFactory.cpp: ConfigurableFactory::ConfigurableFactory, ConfigurableFactory::AddLayers", "src/net/NetGraph.cpp: NetGraph::Initialize, NetGraph::FeedForward", "src/net/ConvolutionLayer.cpp: ConvolutionLayer::FeedForward", "src/net/MaxPoolingLayer.cpp: MaxPoolingLayer::FeedForward", "src/net/ResizeLayer.cpp: ResizeLayer::FeedForward", "src/net/UpscaleLayer.cpp: UpscaleLayer::FeedForward", "src/util/TensorStreamPatchDataset.cpp: TensorStreamPatchDataset::GetTrainingSample"]}
{"id": "C85", "title": "Training a described network follows the gradient of its error", "statement": "For every network description that is accepted and whose sizes fit the data, one forward and one backward pass leave in the gradient buffer of every parameter the partial derivative, with respect to this parameter, of the error of the network: half the weighted sum of squared differences between output and labels. Neither pass ends the program. What the buffers held before does not matter.", "quantifier": "all texts of descriptions, with branches, joins and any number of layers, all sizes of images and batches, all data, labels and weights, all parameters, every earlier contents of all buffers", "why_tests_cant": "The gradient of a network is composed of the backward passes of all its layers along all paths; comparing it with finite differences at some points says nothing about other descriptions, sizes, parameters or data.", "anchors": ["src/factory/ConfigurableFactory.cpp: ConfigurableFactory::AddLayers", "src/net/NetGraph.cpp: NetGraph::AddNode, NetGraph::Initialize, NetGraph::FeedForward, NetGraph::BackPropagate", "src/net/InputDownSamplingLayer.cpp: InputDownSamplingLayer::BackPropagate", "src/net/ErrorLayer.cpp: ErrorLayer::CalculateLossFunction", "tools/trainNetwork.cpp: main"]}
{"id": "C86", "title": "Loss sampling changes neither the loss reported nor the steps of training on average", "statement": "With loss sampling, a random part of the pixels of each training image counts. Averaged over all draws of the random numbers, the loss reported for an iteration and the step of every parameter are those of training without loss sampling, and the images and labels of every batch stay the same.", "quantifier": "all networks made from descriptions, all datasets for fully convolutional training, batch sizes, numbers of batches in an iteration, probabilities, parameters, and all sequences of draws", "why_tests_cant": "An average over all sequences of draws grows exponentially with the number of blocks; runs with some seeds differ from the average anyway, so a wrong factor in the steps looks like another learning rate.", "anchors": ["src/net/DatasetInputLayer.cpp: DatasetInputLayer::FeedForward", "src/net/Trainer.cpp: Trainer::Epoch, Trainer::ApplyGradients", "src/net/ErrorLayer.cpp: ErrorLayer::CalculateLossFunction", "tools/trainNetwork.cpp: main"]}
{"id": "C87", "title": "The weights a network starts with are scaled to its structure", "statement": "After a network is initialised every weight of a convolution layer is a number of the layer's random engine, scaled to the range from -r to r where r*r is 6 divided by the number of weights of a kernel plus the number of inputs that depend on one output of the layer: those of the next convolution layers, divided by the pooling in between. How the user ordered the nodes and how the network is rewired internally makes no difference. Resetting a network puts its parameters back into such a state.", "quantifier": "all networks without cycles a user can wire, all orders of the nodes, all networks made from descriptions, all engines, all earlier values of the parameters", "why_tests_cant": "The numbers are random; a wrong scale only trains worse. Which layers count depends on the whole graph, including layers that are read several times, so no finite set of networks covers it.", "anchors": ["src/net/NetGraph.cpp: NetGraph::InitializeWeights", "src/net/ConvolutionLayer.cpp: ConvolutionLayer::OnLayerConnect", "include/cn24/net/Layer.h: Layer::OnLayerConnect, Layer::Gain", "include/cn24/net/ConvolutionLayer.h: ConvolutionLayer::Gain", "include/cn24/net/MaxPoolingLayer.h: MaxPoolingLayer::Gain", "tools/trainNetwork.cpp: main, help"]}
{"id": "C88", "title": "The rates of errors a command reports are those of its own images", "statement": "Each test in a session of the training tool gives every statistics sink one row, whose recognition rates are those of the testing images delivered in this command, classified with the parameters at that time; nothing counted before, by training or by earlier tests, enters. Training with snapshots gives one row for each epoch with the rates of the images of that epoch alone, or nulls if statistics during training are off; training without snapshots gives one row for all its epochs. A test without errors is reported with 100 percent.", "quantifier": "all sequences of commands (train, test, epoch, reset, load) before, all numbers of epochs and iterations, all networks, data sources, clocks, batches and labels, with and without a second network for testing", "why_tests_cant": "Counters live in layers, numbers in the statistics, and both are reset at different moments by callbacks; a test of one command cannot show what is left over from other sequences of commands.", "anchors": ["src/net/Trainer.cpp: Trainer::Train, Trainer::Test, Trainer::Epoch", "src/net/ConfusionMatrixLayer.cpp: ConfusionMatrixLayer::UpdateAll, ConfusionMatrixLayer::Reset", "src/net/BinaryStatLayer.cpp: BinaryStatLayer::UpdateAll", "src/util/StatAggregator.cpp: StatAggregator::Reset, StatAggregator::Snapshot, StatAggregator::Update", "src/net/NetGraph.cpp: NetGraph::SetStatLayersEnabled", "tools/trainNetwork.cpp: parseCommand"]}
{"id": "C89", "title": "The recognition rates of a test are those of the whole testing set", "statement": "When the samples come from a tensor stream dataset, the row that a test gives to every statistics sink has the recognition rates and the intersection over union of the pixels of all testing images: every image is counted once and with its own size, with the class the network finds for it, the class of its label and the weight of that pixel. Margins of images smaller than the largest one, positions of the last batch that are left over, the size of the batches, the generator of random numbers and whatever was trained or tested before do not enter.", "quantifier": "all datasets whose pairs fit the announced sizes, all numbers and sizes of testing images (fewer than 2^24 batches), all batch sizes, all networks that treat the images of a batch alone, all class weights and localised error functions, all histories of commands, with and without a second network for testing", "why_tests_cant": "The batches mix images of different sizes with fill-up positions, and the state of the input layer depends on everything done before; the rates only come out right if every left-over pixel has weight zero and every image is delivered exactly once.", "anchors": ["src/net/DatasetInputLayer.cpp: DatasetInputLayer::FeedForward, DatasetInputLayer::SetTestingMode", "src/util/TensorStreamDataset.cpp: TensorStreamDataset::GetTestingSample", "src/net/Trainer.cpp: Trainer::Test", "src/net/ConfusionMatrixLayer.cpp: ConfusionMatrixLayer::FeedForward, ConfusionMatrixLayer::UpdateAll", "src/util/StatAggregator.cpp: StatAggregator::Update"]}
{"id": "C90", "title": "The percentages of QuickProp's rules and the processing speeds of a row are those of its own steps", "statement": "Every row of training statistics has, when QuickProp is used, the percentages of the weight updates of exactly the steps since the previous row for which the slope was flat, the vertex of the parabola was within reach, or the last step was enlarged; they are between 0 and 100 and add up to 100, and they are absent for gradient descent and for tests. Pixel throughput and frame rate are the number of pixels and images processed for the row, divided by the elapsed time that the same row reports.", "quantifier": "all networks, parameters, settings, learning rates and gradients, all numbers of epochs, iterations and sequential batches, all histories of commands (training with and without snapshots, testing, resetting, loading, setting the epoch), with and without a second network for testing, all readings of the clock", "why_tests_cant": "The counters are reset, accumulated and divided in four different places (optimiser, trainer, collector, tool), and which weights fall under which rule depends on all previous steps; a wrong reset or divisor only shows in certain sequences of commands.", "anchors": ["src/net/Trainer.cpp: Trainer::InitializeStats, Trainer::ApplyGradients, Trainer::Epoch, Trainer::Test, Trainer::Train", "src/util/StatAggregator.cpp: StatAggregator::Update, StatAggregator::Reset, StatAggregator::Snapshot, StatAggregator::Generate", "tools/trainNetwork.cpp: parseCommand"]}
{"id": "C91", "title": "What a network computes for an image does not depend on the batch it is part of", "statement": "Evaluating a network on two batches, of any sizes, in which one of the pictures is the same: all layers, and in particular the output, agree in this picture. The other pictures of the batches, the position of the picture, the labels, the weights of the pixels and whatever the memory of the layers held before have no influence. Therefore the recognition rates of a test are those of each testing image evaluated alone, and do not depend on the size of the batches.", "quantifier": "all networks that a description can name, including joins, normalisation, H-Max, spatial prior and loss layers, all parameters, all sizes and contents of batches, all positions, all previous contents of the memory, all sessions before a test", "why_tests_cant": "Every layer has its own loops over the samples, and an index that mixes two samples, or an element that is not written, shows only for certain sizes, positions and previous batches; the comparison is between arbitrary pairs of batches.", "anchors": ["src/net/NetGraph.cpp: NetGraph::Initialize, NetGraph::FeedForward", "src/factory/ConfigurableFactory.cpp: ConfigurableFactory::AddLayers", "src/net/ConvolutionLayer.cpp: ConvolutionLayer::FeedForward", "src/net/MaxPoolingLayer.cpp: MaxPoolingLayer::FeedForward", "src/net/AdvancedMaxPoolingLayer.cpp: AdvancedMaxPoolingLayer::FeedForward", "src/net/LocalResponseNormalizationLayer.cpp: LocalResponseNormalizationLayer::FeedForward", "src/net/ConcatenationLayer.cpp: ConcatenationLayer::FeedForward", "src/net/SumLayer.cpp: SumLayer::FeedForward"]}
{"id": "C92", "title": "Training with a batch gives what training with its parts gives", "statement": "The settings for the number of pictures that are processed at once and for the number of passes before each update of the weights can be traded for each other: training with batches of q*r pictures, and training with batches of r pictures and q times as many passes per update, from the same seed, dataset and parameters, give the same weights, the same momentum and the same reported loss after any number of updates, with gradient descent and with QuickProp. In particular the two kinds of batches hold the same pictures in the same order with the same dropped blocks.", "quantifier": "all networks that a description can name, all datasets, all seeds and random number generators, all sizes of batches and numbers of parts, all numbers of updates, all learning rates and regularisation weights, both optimisation methods, all previous contents of the memory", "why_tests_cant": "The comparison is between two whole trainings of any length; a mistake in normalising by the number of samples, in clearing or adding up gradients, in the order of random draws, or in a loop over samples shows only for certain sizes and data, and two training runs are never compared bit by bit.", "anchors": ["src/net/Trainer.cpp: Trainer::Train, Trainer::Epoch, Trainer::ApplyGradients", "src/net/DatasetInputLayer.cpp: DatasetInputLayer::FeedForward", "src/net/NetGraph.cpp: NetGraph::FeedForward, NetGraph::BackPropagate, NetGraph::AggregateLoss", "src/factory/ConfigurableFactory.cpp: ConfigurableFactory::AddLayers", "src/net/ErrorLayer.cpp: ErrorLayer::CalculateLossFunction", "src/util/TensorStreamDataset.cpp: TensorStreamDataset::GetTrainingSample"]}
{"id": "C93", "title": "The rates of a binary test do not depend on how many pixels it has", "statement": "The precision, recall, F1 value, accuracy, false positive rate and false negative rate reported after testing a network with two classes are those of the pixels seen since the last reset, however many they are.", "quantifier": "all lists of batches of any sizes, with weights zero or one, all predictions and labels, all thresholds", "why_tests_cant": "The counters are single precision numbers; that adding one to them stops having an effect shows only after 2^24 pixels of one kind, some sixteen images of a megapixel, far beyond what a unit test feeds.", "anchors": ["src/net/BinaryStatLayer.cpp: BinaryStatLayer::FeedForward, BinaryStatLayer::UpdateAll, BinaryStatLayer::Reset", "include/cn24/net/BinaryStatLayer.h: true_positives_, false_positives_", "include/cn24/util/Config.h: datum", "tools/trainNetwork.cpp: BinaryStatLayer"]}
{"id": "C94", "title": "Outputs in single precision are close to the exact ones", "statement": "Every output of a convolution layer computed in single precision differs from the exact result (bias plus sum of weights times pixels) by no more than (n+4) 2^-23 times the sum of the absolute values of what is added, n being the number of products in an output, plus (n+4) 2^-149. An error of the input is passed on multiplied by at most the largest sum of absolute values of the weights of an output map; rectifiers and max pooling layers add no error.", "quantifier": "all connected convolution layers with any kernel, stride, padding and group, up to 2^23 - 4 products in an output; all weights, biases and images that do not overflow; all inputs of rectifiers and pooling layers", "why_tests_cant": "Rounding errors depend on every single number and on the order of the additions; a test compares a few images with a tolerance somebody has chosen, and cannot tell what tolerance is right for all of them.", "anchors": ["src/net/ConvolutionLayer.cpp: ConvolutionLayer::FeedForward", "src/math/TensorMath.cpp: TensorMath::GEMM, TensorMath::IM2COL, TensorMath::SMS", "src/net/NonLinearityLayer.cpp: ReLULayer::FeedForward", "src/net/MaxPoolingLayer.cpp: MaxPoolingLayer::FeedForward", "src/net/AdvancedMaxPoolingLayer.cpp: AdvancedMaxPoolingLayer::FeedForward", "include/cn24/util/Config.h: datum"]}
{"id": "C95", "title": "The picture of a network shows its layers and connections, by names that identify them", "statement": "The file written by the command graph is read by Graphviz as one box for every layer, with its name, description, outputs and their sizes, and one arrow for every connection, from the output read to the reading layer, dotted if no gradient is passed back. Names of layers differ, so that wstat and dstat with a name from the picture report on that layer and no other.", "quantifier": "all networks after Initialize, with any number of layers, outputs and connections, in any order of adding; all texts of descriptions without the special characters of Graphviz", "why_tests_cant": "Whether the text reads as the graph depends on all names, descriptions and numbers of outputs together; a test looks at one network.", "anchors": ["src/net/NetGraph.cpp: NetGraph::AddNode, NetGraph::PrintGraph", "include/cn24/net/NetGraphNode.h: unique_name, output_buffers", "src/util/Tensor.cpp: operator<<", "tools/trainNetwork.cpp: graph, wstat, dstat"]}
{"id": "C96", "title": "The printed confusion matrix tells the counts and rates of all classes", "statement": "After any number of evaluated batches, the report printed for a data set with several classes can be read back: the row of a class and the column of a class hold the weight of the pixels classified as the first and labelled as the second, every class that occurs has its recognition rate, every class its intersection over union, and the average shown last is the one submitted as a statistic.  Class names are shown so that they can be told apart.", "quantifier": "all numbers of classes, all class names, all sequences of batches with non-negative weights, training and testing, all line prefixes", "why_tests_cant": "The report depends on the whole history of batches, on names of any length and on counts of any size; a test reads a few small reports.", "anchors": ["src/net/ConfusionMatrixLayer.cpp: ConfusionMatrixLayer::Print, ConfusionMatrixLayer::ConfusionMatrixLayer, UpdateAll", "include/cn24/util/Log.h: LOGRESULT, LOGTRESULT, LOGRESULTEND", "src/net/Trainer.cpp: Trainer::Test, Trainer::Epoch"]}
{"id": "C97", "title": "The configuration file decides which OpenCL device is used", "statement": "When the library starts, the platform and the device are those of the last lines opencl_platform=N and opencl_device=N of the file config beside the program, or of the one in the directory above if there is none beside it; without such lines or without a file they are the first ones. Platforms or devices that do not exist are reported. Kernel files are looked for in the same two places, and a missing one is reported.", "quantifier": "all files, all locations of the program, all lists of lines, all lists of platforms and devices, all kernel names", "why_tests_cant": "The outcome depends on the content of a file of any length, on the order of its lines, on the location of the program and on the machine's devices; a test sees one machine.", "anchors": ["src/util/Init.cpp: System::Init, System::GetExecutablePath, CLHelper::Init, CLHelper::CreateProgram", "src/util/ConfigParsing.cpp: ParseUIntIfPossible"]}
{"id": "C98", "title": "The scores of a network in single precision are close to those of exact arithmetic", "statement": "The output of the network of a configuration text, computed in IEEE single precision, differs from the output of the same network with the same parameters in exact arithmetic by at most a bound that is the sum of what its layers contribute: a convolution multiplies the error by the sum of the absolute values of its weights and adds its own rounding, rectifiers, poolings and borders add nothing, enlarging adds half a unit in the last place, the sigmoid and the hyperbolic tangent add their own error. If in exact arithmetic the score of a class leads by more than twice the bound, the computed class is the same.", "quantifier": "all configuration texts with convolutions, fully connected layers, max poolings with and without strides and activations, all parameters, all images, all classes", "why_tests_cant": "Rounding errors depend on all parameters and pixels; a test compares single images, and has no exact result to compare with.", "anchors": ["src/factory/ConfigurableFactory.cpp: ConfigurableFactory::AddLayers", "src/net/NetGraph.cpp: NetGraph::FeedForward", "src/net/ConvolutionLayer.cpp: ConvolutionLayer::FeedForward", "src/net/UpscaleLayer.cpp: UpscaleLayer::FeedForward", "src/net/ActivationFunctions.cpp: SigmoidLayer::FeedForward, TanhLayer::FeedForward", "src/util/Tensor.cpp: Tensor::PixelMaximum"]}
{"id": "C99", "title": "A network fed from the user's tensors sees what they hold", "statement": "A network whose input layer is constructed from tensors of the user sees, in every pass, exactly the values that the tensors hold at that moment, whatever the user wrote into them before and after constructing the layer. Tensors with different numbers of samples are refused when the layer is constructed. Setting up a node of the graph gives every layer its output buffers with the right dimensions, or reports an error and leaves the layer as it was.", "quantifier": "all programs of the user that construct, write and resize tensors before and after constructing the layer, all dimensions, all vectors of input and output buffers", "why_tests_cant": "The layer shares memory with the user's tensors; whether a later write is seen, or memory is read after its release, depends on the whole history of the program.", "anchors": ["src/net/InputLayer.cpp: InputLayer::InputLayer, InputLayer::CreateOutputs, InputLayer::Connect", "src/net/DatasetInputLayer.cpp: DatasetInputLayer::CreateOutputs, DatasetInputLayer::Connect", "src/net/SimpleLayer.cpp: SimpleLayer::Connect", "src/net/NetGraph.cpp: NetGraph::InitializeNode", "src/util/Tensor.cpp: Tensor::Shadow, Tensor::Resize"]}
{"id": "C100", "title": "KITTI file names lead to the requested frame", "statement": "For every folder, category and frame number, KITTIData::getImage, getRoadGroundtruth and getLaneGroundtruth return the path under which the published archive keeps exactly this file: the name can be read back to role, category and number, so an image and its ground truths asked for with the same arguments belong to the same frame. No two different requests below one folder ever yield the same path, also for negative numbers and for numbers of more than six digits; a negative number yields a path that is no name of the archive.", "quantifier": "every source folder (any text), all four categories, all four roles and all frame numbers", "why_tests_cant": "numbers are unbounded for practical purposes and the claim that no two requests collide is about all pairs of requests; prefixes such as um_ and umm_ could collide with an infix or a number only for particular combinations", "anchors": ["src/util/KITTIData.cpp: KITTIData::KITTIData", "src/util/KITTIData.cpp: getImage", "src/util/KITTIData.cpp: getRoadGroundtruth", "src/util/KITTIData.cpp: getLaneGroundtruth", "src/util/KITTIData.cpp: assembleFileName", "include/cn24/util/KITTIData.h: KITTICategory"]}
{"id": "C101", "title": "The console shows every reported statistic", "statement": "With a ConsoleStatSink registered before StatAggregator::Initialize, every call that reports (Generate, or Snapshot while recording) adds exactly one report to the console. A reader of the console finds in it the epoch, by its colour whether it belongs to training or testing, and for every statistic that is not null, in the order of registration, description, value and unit; null statistics do not appear. The value is the text of the statistic's output function, applied to the values recorded since the last reset. This holds for every log level, whatever stands on the console already and whatever experiments are announced in between. A report with fewer statistics than descriptors reads behind their end.", "quantifier": "every sequence of calls of the collector, every set of statistics whose descriptions contain no colon or line feed, every set of null and non-null values, every log level", "why_tests_cant": "the claim is about all histories of calls and all texts of descriptions, units and values, including descriptions longer than their column", "anchors": ["include/cn24/util/ConsoleStatSink.h: ConsoleStatSink::Initialize, Process, SetCurrentExperiment", "include/cn24/util/Log.h: LOGRESULT, LOGTRESULT, LOGRESULTEND, LOGINFO, LOGDEBUG", "src/util/StatAggregator.cpp: Generate, Snapshot"]}
{"id": "C102", "title": "The sparsity statistics are those of the forward passes", "statement": "Every forward pass of a sparsity layer (HMaxActivationFunction) that runs while the statistics collector records contributes the layer's two current parameters to the two statistics of these layers; passes outside of recording, before a reset or before a snapshot contribute nothing. A report shows, for each of the two statistics, the sum of the contributions divided by the number of iterations, and null if there was no iteration. Constructing, running and destroying layers never makes a report undefined.", "quantifier": "every history of constructing layers in both ways, running and destroying them, and of calls of the collector, with other statistics registered at any place in between", "why_tests_cant": "depends on which layer was constructed first, on the order of construction, registration and recording, and on the lifetime of layers; a test sees a few of these orders", "anchors": ["src/net/HMaxActivationFunction.cpp: HMaxActivationFunction constructors, FeedForward, stat_id_a, stat_id_b", "include/cn24/net/HMaxActivationFunction.h: desc_a, desc_b", "src/util/StatAggregator.cpp: RegisterStat, Update, Generate"]}
{"id": "C103", "title": "The benchmark reports images per second", "statement": "runBenchmark reports twice: after 30 forward passes and after 15 forward and backward passes. Each report is the number of images that passed through the network while recording, divided by the time recorded; the second does not contain anything of the first. Statistics that layers of the network report do not disturb it. The network is that of the file named on the command line, and a file that cannot be opened ends the program with a message.", "quantifier": "every network description, every file, every clock, every set of statistics reported by layers", "why_tests_cant": "depends on all descriptions with their settings, all clock readings and all orders of registration; a test sees one number per machine", "anchors": ["tools/runBenchmark.cpp: main", "src/factory/ConfigurableFactory.cpp: InitOptimalSettings", "src/util/StatAggregator.cpp: Update, Generate, Reset"]}
{"id": "C104", "title": "The viewer shows the tensor", "statement": "In a build with GTK, showing a sample of a tensor gives the toolkit a picture of the tensor's size: a tensor of three maps is a colour image, of any other one map is shown, positive values in green up to 1 and negative values in red down to -1. Each channel is off by less than 1/254. Nothing is written between the rows or outside of the picture, whatever the distance of the rows. The layer view shows every map of every sample of a layer's output, in order.", "quantifier": "every tensor, every size, every distance of rows, every selected map and sample", "why_tests_cant": "for all sizes, values and row distances; a wrong write next to a row or an undefined conversion does not show in a test picture", "anchors": ["src/util/TensorViewer.cpp: copyTV, TensorViewer::show", "src/net/NetGraph.cpp: NetGraph::FeedForward", "tools/tensorTool.cpp: main"]}
{"id": "C105", "title": "The line of settings tells the settings", "statement": "Before the first command the training program prints the settings in one line. From that line a user can read every real setting as formatted, both batch sizes and the method, as the description last set them or as they are by default; two trainings with different settings never show the same line, except for digits that the formatting drops.", "quantifier": "every description of settings lines and other lines, every default, every formatting of numbers without commas", "why_tests_cant": "for all descriptions and numbers; a swapped label shows only if the values differ", "anchors": ["src/net/Trainer.cpp: operator<<", "tools/trainNetwork.cpp: main", "src/factory/ConfigurableFactory.cpp: ConfigurableFactory::InitOptimalSettings"]}
{"id": "C106", "title": "Gradient descent in single precision follows the update rule", "statement": "With gradient descent, each update of a weight in single precision gives the weight and the kept step that the rule of gradient descent with momentum and penalties gives for the same numbers, up to an explicit bound for the rounding errors. A step that is not small compared with the weight moves the weight in the right direction. (Not true in general: that training moves a weight as long as its gradient is not zero.)", "quantifier": "all settings, gradients, weights, previous steps (as single-precision numbers without overflow), numbers of pixels below 2^24 and, for the negative part, all sequences of gradients of any length", "why_tests_cant": "rounding errors depend on all bits of all numbers and accumulate over any number of iterations; tests compare a few steps with a tolerance", "anchors": ["src/net/Trainer.cpp: Trainer::ApplyGradients", "include/cn24/net/Trainer.h: TrainerSettings"]}
{"id": "C107", "title": "The printed loss per sample is the mean", "statement": "The loss per sample that is printed for a loss layer after a test or an epoch is the sum of the losses of all passes divided by the number of pixels that took part (times the probability of loss sampling), up to rounding errors that grow with the number of passes.", "quantifier": "all numbers of iterations, pixels and sequential batches, all sequences of non-negative losses", "why_tests_cant": "the sum is rounded after every pass and the number of pixels is computed with wrap-around; tests with small datasets show neither", "anchors": ["src/net/Trainer.cpp: Trainer::Test, Trainer::Epoch"]}
{"id": "C108", "title": "QuickProp in single precision does not step uphill and limits its steps", "statement": "With QuickProp, in single precision, no step of a weight leads uphill on the slope it is computed from, in no sequence of learning rates and slopes; no step is larger than mu times the step before plus the learning rate times the slope, up to an explicit bound for rounding errors; the division of the parabola step is never one by zero. (Not true in general: the first part, if mu is below one.)", "quantifier": "all values of mu of at least 1 + 2^-20, all non-negative learning rates, all sequences of slopes of any length, starting with any step that did not lead uphill (for the first part); all single precision numbers (for the others)", "why_tests_cant": "The claim is about every history of slopes and about rounding in every operation; a test sees a few sequences, and whether a comparison flips by rounding depends on the last bit", "anchors": ["src/net/Trainer.cpp: Trainer::ApplyGradients (QUICKPROP), sgn", "include/cn24/net/Trainer.h: TrainerSettings::mu"]}
