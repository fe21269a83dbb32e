# Design of the formal model of cn24

Everything here is about the source in `/repo` (cvjena/cn24 at the pinned commit), read as text.
Nothing was built or run.  The model is Lean 4 (4.33.0), under `lean/Verif/`.

## Modelling conventions

* **Memory and undefined behaviour.**  A buffer is a `List` of values.  A read or a write outside the
  buffer is *undefined behaviour* and is a distinct outcome of the model (`none` of an `Option`, or
  `Outcome.undefined`), never a default value.  `FATAL(...)` (an exception, `include/cn24/util/Log.h`) is
  the outcome `Outcome.fatal` wherever a function can both fail and be undefined.
* **Loops.**  `for (i = 0; i < n; i++)` is `forLoop n body state` (Verif/Base/Loop.lean), structural
  recursion with the iterations in the order of the source.  Nested loops keep the nesting of the source,
  and index expressions are written as in the source.
* **Numbers.**  `datum` is `float`.  Where the bits matter (serialisation, compression, positions stored as
  floats, the number of test batches) a datum is its 32-bit pattern or the rounding is modelled.  Where
  arithmetic matters a datum is an element of a commutative ring, an ordered field or the reals: *rounding,
  overflow to infinity and NaN are not modelled there*, and the theorem is about exact arithmetic.
* **Integers.**  `unsigned int` and `size_t` counters and sizes are `Nat` (no wrap-around) unless the
  property depends on wrap-around or signed division (C04, C17, C28, C31, C36, C48, C53, C56); those places model
  the machine arithmetic and say so.
* **External code** (libpng, libjpeg, BLAS, OpenCL, `std::shuffle`, `exp`, `pow`, printing of numbers) is a
  parameter of the model with the assumption stated, or not modelled.

## Layout

* `Verif/Base/*` loops, buffers, bytes, regular expressions, outcomes, parallel access programs, with their
  reasoning rules
* `Verif/Model/*` one file per modelled source file or group; each definition cites `/repo`
* `Verif/Spec/*` specifications that are used by several property files (descriptor grammar, sizes of a chain
  of layers, coherent memory)
* `Verif/Proof/*` helper lemmas
* `Verif/Props/*` the property theorems, their specifications and non-vacuity examples

## What is modelled, and how each property is proved

| id | what is modelled | how it is proved |
|----|------------------|------------------|
| C01 | `Tensor::Offset`, reads and writes | mixed-radix injectivity and surjectivity |
| C02 | `Serialize`/`Deserialize` over bytes, both reading modes | round trip with arbitrary surrounding bytes |
| C03 | `FloatTensorStream::LoadFile` with the eof/fail bits of the stream | induction over the tensors, analysis of every cut point |
| C04 | `CompressData`/`DecompressData` byte for byte | invariant on the run state; negation for large tensors |
| C05 | the same, with the write position and the buffer size of `Compress` | length bound by induction |
| C06 | the decoder with out-of-bounds outcomes | negation by two witnesses; partial for well-formed records |
| C07 | compressed file format, dispatch on the magic number, reader | composition of C04 with record framing |
| C08 | `CopySample`, `CopyMap` | loop invariants with frame conditions |
| C09 | `Transpose` | loop invariant |
| C10 | `Maximum`, `PixelMaximum` over any linear order | fold invariant |
| C11 | heap of buffers and tensor handles, one step per operation | invariant over histories; negation for moved shadows and mappings |
| C12, C13 | `StatAggregator` as a state machine with sinks | invariant and refinement to a log of updates |
| C14 | CSV sink writing characters | counting fields |
| C15, C16, C17 | `LayerFactory`: regular expressions, extraction, seed injection, `atoi` | equivalence of the expressions with a grammar; negations by witness |
| C18 | `ConfigParsing`: `find`, `substr`, `atoi` on characters | specification on lists of parameters; negation for overlapping names |
| C19, C20, C60 | `NetGraph` passes and initialisation as depth-first traversals with visited flags | invariant of the traversal over all acyclic graphs |
| C21 | insertion of accumulation layers in `Initialize` | counting consumers; negation for second buffers |
| C22 | parameter (de)serialisation over bytes | round trip using C02 |
| C23 | `IsComplete` | partial; negation by witnesses |
| C24, C61 | `ErrorLayer` loops and `Connect` | algebra; negation for accepted shapes |
| C25, C26, C53 | `Trainer::Epoch`/`ApplyGradients`, `CalculateLR` | loop invariants; negation for QuickProp and for the 32-bit index |
| C27, C28 | `DatasetInputLayer` cursor and permutation, loop of `Trainer::Test` | invariant over histories; float rounding of the batch count |
| C29, C30 | `TensorStreamDataset` constructor and sample fetch | maximum lemmas; negation for testing images |
| C31 | patch index search of `TensorStreamPatchDataset` | bijection; negations |
| C32, C33, C34, C37, C38 | `TensorMath` kernels on the host | loop invariants, finite sums; negation for COL2IM |
| C35, C36, C57 | `ConvolutionLayer` with the kernels above | composition of the kernel theorems with matrix sums |
| C39, C40 | `MaxPoolingLayer`, `AdvancedMaxPoolingLayer` | loop invariants; negations |
| C41, C42, C50, C58, C59 | concatenation, sum, resize, accumulation, spatial prior, up-/down-scaling | loop invariants |
| C43, C44 | statistics layers with all counters | invariants over histories of batches and resets |
| C45 | patch cutting of `TensorStreamPatchDataset`/`Segmentation` | index arithmetic; negations for labels and large patches |
| C65 | the data flow of both passes: buffers with data and deltas, layers as functions, accumulation layers; the modelled layers as such functions (`Model/GradientLayers`) | chain rule as a duality summed over all nodes, induction over the backward log; reduction of the rewritten graph to the graph of the user; per layer: affine layers by their adjoints, the others by derivatives along curves |
| C66 | `HMaxActivationFunction` over the reals with `exp` | loop invariants, derivative of the logistic function along curves; negation for the weights |
| C67 | PNG and JPEG loading and storing, file name dispatch, conversions rounded to single precision on rationals | loop invariants, rounding bounds, all 256 bytes by evaluation; negations |
| C68 | `ListTensorStream` and its description, on the image files of C67 | induction over the lists, invariant over histories of loads, injectivity of the byte conversion; negations |
| C69 | `CreateFromConfiguration` of both tensor stream datasets: the line loop, the three sections, the settings, the final checks, the files opened | abstract descriptions rendered to text, induction over the items; an invariant of the line loop for arbitrary texts; negations |
| C70 | the counting and reading loops of the patch dataset on files and descriptors, and the whole of its `CreateFromConfiguration` | `Tensor::Deserialize` with an independent descriptor, induction over the records of a file; negation |
| C71 | `InitOptimalSettings` on the text of the file; conversion of text to numbers is a parameter | setting lines as a syntax, words that are not prefixes of each other, induction over the lines; negation |
| C72 | the commands of the tool, `Train`, `Test`, `Epoch`, the input layer and the statistics; the passes of the network are functions of parameters and batch | simulation between two sessions, induction over commands and iterations; negation with a one-parameter network |
| C73 | `AddLayers` for both factories, the parameters of every layer, `GetParameters` and the loop that shares them | a static analysis of the numbers of maps; a relation between the two states of `AddLayers` kept by every line; negation with a four-line description |
| C74 | `parseCommand` (its case distinction and effect on parameters and files), the loop over a script and the loop of the prompt; training, testing and initialisation are parameters; the statistics files are not among the files | an AST of commands rendered to text; induction over scripts, inputs and the lines between saving and loading; negations with literal lines |
| C75 | the tool from loading the image to writing the result, with the file model of C67, `CopySample` and `Colorize`; the network is a function of its two inputs | effects of write loops (`Upd`), the theorems of C47 and C67, the exact byte round trip; the negation for all portrait sizes with padding |
| C76 | the four tools from their arguments to the bytes they write, on top of the file models of C02-C07 and the list stream of C68; bit patterns of values are a parameter | induction over the records with the stream invariant `At`; simulation between the conversion loop and the list stream; crash points as prefixes of what is written |
| C77 | `Model/CsvFiles.lean`: the sink as a function of the calls it receives and the disk, with the possible disks after a kill; composed with the collector of C12/C13 | invariants over the call sequence: the open file is the selected one, its text is the header and the rows; the calls each collector operation makes are computed from the invariant of C13 |
| C78 | `Model/ClassStats.lean`: the counting loops over the samples of C30, the two tables | a loop rule that adds up what each step contributes to a pair of functions; padding contributes 0 by C30; the tables by field arithmetic |
| C79 | `Model/TensorTool.lean`: the start of the tool, extraction of words and numbers from the input, each command, the loop | an input of words separated by any white space is read word by word; induction over the commands with the relation `Edits` as specification; the order of the bytes by index arithmetic |
| C80 | `Model/DeviceKernels.lean`: the enqueued kernels as programs of single memory accesses, and the launches with their work sizes and offsets | disjoint footprints give one result for every schedule (`EverySchedule`, as in C51); the result is compared with the host model of C32, C33, C37-C40 element by element; a program that fails alone fails in some schedule |
| C81 | `Model/DeviceNet.lean`: two memories, the flags of the tensors, and every move of `TensorMath`, of the passes of the layers, of `PrepareNode` and of the code around them; loops and kernels are functions with footprints | simulation of the build with one memory (`Spec/DeviceNet.lean`), with the set of elements still to be written and the set of tensors whose host copy is current as part of the invariant; orders from C19 and C20 |
| C82 | `Model/LayerParams.lean`: the constructors of all nine layer types from text, on top of the parameter readers of C18 | parameters as data with a vocabulary of names and kinds (`Spec/LayerParams.lean`); each reader gives the first value of its name, by C18 and a split of the list at that name |
| C83 | `Model/NetConfig.lean`: `addLine` and what it calls, as for C56 | typed parameter lists rendered to lines, the readers of C82 for every vocabulary, the text replacements by splitting the line at the word found |
| C84 | `Model/NetEval.lean`: `eval` (outputs, connection and forward pass of one layer, from the models of the layers), `values` (all nodes), `predict` (factory, layers, forward pass, output node) | every layer computes its output pixels from windows of its input (`LocalMap`), for all sizes and modes; this is closed under composition; border and enlargement from C42 and C44; nodes in order of creation from C56 |
| C85 | `Model/NetTrain.lean`: `netOf`, `graphOf` (the nodes of the factory handed to `AddNode` behind the data layer), `layersOf` (the two passes of every layer, from the models of the layers), `fatalCall` | invariant over the lines (`addLayers_built`): connections lead back, those that carry no gradients come from layers before all parameters; then the theorem on graphs (C65), exactness of every layer (`layer_exact`) and the loss as an explicit sum |
| C86 | `Model/Sampling.lean` (`feedForward`, `lossSampling`), `Model/Trainer.lean` (`direction`, `reportedLoss`), `Model/NetTrain.lean`; `Spec/LossSampling.lean`: `mean` over all sequences of draws, `share`, a generator that reads its draws from a list | two runs of the input layer side by side (`Side`, `Masked`); averages commute with sums and derivatives; networks with other weights at the data layer solve the same equations (`solves_reweight`) |
| C87 | `Model/WeightInit.lean` (`Unit.gainOf`, `gainSum`, `drawWeights`, `Unit.onLayerConnect`, `connectAll`, `initializeWeights`) on the traversal of `Model/NetGraph.lean`; `Spec/WeightInit.lean`: `readers`, `passed`, `Fan`, equations for the number of inputs behind a node | induction over the order of the calls, which handles readers first (C60); the equations have one solution by well-founded recursion; accumulation nodes keep the solution (`readers_accumulated`) |
| C88 | `Model/Rates.lean`: the session of `Model/Session.lean` with counting layers (`iteration`, `epoch`, `resetLayers`, `snapshot`, `train`, `test`, `finish`, `exec`, `run`), `confusion` and `binary` from `Model/StatLayers.lean`; `Spec/Rates.lean`: `feedAll`, `shown`, `Lawful`, `Ready` | invariant `Ready` between commands; the loops of a command only touch the loss statistic (`Quiet`) and count what is shown (`Counted`); C43 for the confusion matrix |
| C89 | the models of C27-C30 (`Model/Sampling.lean`, `Model/Dataset.lean`), C43 (`Model/StatLayers.lean`) and C88 (`Model/Rates.lean`) together; `Spec/TestSet.lean`: `Imagewise`, `PixelOf`, `pixels`, `RatesOf` | invariant of the source over sessions (`Kept`), contents of every position of every batch by induction over positions and batches (`AtPos`), and all reported numbers as sums over observations that vanish with the weight, rearranged from batches to images |
| C90 | `Model/Progress.lean`: `ApplyGradients` with its counters, the seven further statistics and the places that update them, on top of the session of C72 | every row is a running invariant of the collector (`Live`: steps and epochs since the last row); the counters by induction over the weights visited, each of which reads only its own cells |
| C91 | `Model/NetBatch.lean`: the forward pass of every node that `AddLayers` can make, on batches of any size, with the previous memory of the outputs as a parameter | each layer computes, for each sample alone, a function of the pixels of that sample (`Wise1`, `Wise2`); then a relational induction over the nodes |
| C92 | `Model/NetSplit.lean`: the parameters of the network as those of the trainer; otherwise the models of C25, C27, C85 and C91 | part of a buffer as a relation through all layers (`IsPart`), sums of derivatives by uniqueness of derivatives, induction over the iterations of the trainer, and a simulation between input layers of two sizes of batches |
| C93 | `Base/Flt.lean`: numbers of a floating point format as multiples of the smallest one, addition with rounding to nearest, ties to even; the model of the layer (`Model/StatLayers.lean`, C44), which needs an addition only, with these numbers | a whole number up to 2^24 plus one is exact or stays at 2^24 (`Flt.nat_add_one`), induction over the elements; comparison with the same model over ℚ |
| C94 | `Base/Flt.lean`: addition, subtraction and multiplication of floating point numbers with gradual underflow, rounded to nearest, ties to even; the models of the matrix product, im2col and the layers (C33 to C41), which need no laws of arithmetic, with these numbers | error of one operation from the rounding (`Flt.add_err`, `Flt.mul_err`), induction over the sum for relative errors (1+2^-24)^k - 1 (`Flt.Approx.sumTo`); the exact specification of the convolution (C35) as a sum in the order of the code (`forward_fold_spec`); numbers with overflow (`Checked`) give the same results as long as all intermediate values are below 2^128 (`output_finite`) |
| C95 | `Model/GraphFile.lean`: naming in AddNode, PrintGraph, the commands graph, wstat and dstat | reader of the DOT language in `Spec/Dot.lean` (tokens, statements, attributes, record labels); induction over texts, buffers, nodes (`Step`, `Parses`, `fields_buffers`); invariant over AddNode for the names |
| C96 | `Model/MatrixReport.lean`: shortening of names, columns, lines of the log with colours, `static_cast<long>`, `Print`; `Spec/MatrixReport.lean`: reader of the report | the loops of `Print` as a list of lines (`print_lines`) from the counters of C43, the reader applied to such lines (`read_lines`) |
| C97 | `Model/Startup.lean`: path of the program, search for the configuration file and for kernels, its lines, the choice of the device | induction over the lines with the text lemmas of C71; case distinction over platforms and devices |
| C98 | the models of `Model/NetEval.lean` and of the layers, whose arithmetic is a parameter, run on the rounded numbers of `Base/Flt.lean` and on rational numbers | one lemma for each kind of layer from C94 and C35, C36, C39, C40, C61; induction over the layers; `predict_chain` of C84 for the texts; the order of the sums of down-sampling kept as a fold; a rounding bound for quotients and the slope of the sigmoid (Mathlib's analysis) for the smooth activations |
| C99 | tensor objects with pointers to blocks of memory, the constructors and set-up of `InputLayer`, `CreateOutputs` and `Connect` of the input layers, `SimpleLayer::Connect`, the second half of `InitializeNode`, the user's program as a list of writes and resizes | a refinement invariant between the blocks and a specification with tensors as values, by induction over the operations; blocks that no tensor of the user points to do not change |
| C100 | Model/KittiFiles.lean: the constructor and the functions of KITTIData that make names, including the padding in front of the sign | a reader in Spec/KittiFiles.lean splits a path at its last slash and the name at underscores; C100_read shows it is a left inverse, C100_distinct uses that padding and printing are injective |
| C101 | Model/ConsoleSink.lean: the three functions of the sink as texts added to the standard output, with padding, colours and log levels | an independent reader of the console (Spec/ConsoleReport.lean) is shown to yield the reports; induction over the calls, and the invariant of the collector for C101_collector |
| C102 | Model/HMaxStats.lean: the two static identifiers, the descriptors as members of a layer with a lifetime, the update calls of FeedForward, on top of the model of the collector | refinement of the layers to calls of the collector, then the invariant of the collector; an invariant (a dead descriptor stays registered) for the negative result |
| C103 | Model/Benchmark.lean: choice of the network, order of making the image and reading the settings, and all calls of the collector and passes as a list of events | an observer (Watch) defined on the events alone; invariant of the collector for the first statistic along the events; induction over the passes |
| C104 | Model/Viewer.lean: the loops of copyTV with row distance and undefined conversions, and the loops of the layer view | the loops as one sequence of writes to distinct positions; accuracy from the conversion lemmas of C67 |
| C105 | Model/SettingsText.lean: the line of `operator<<` and the settings it is given | an independent reader that splits at commas and looks labels up; the values from C71_settings |
| C106 | One update of one weight, written with operations only, so that it runs with rounded numbers (`Single`) and exact numbers; the same as the model of C25 over fields (C106_rule). | Errors of the single operations are composed (`Approx`); small numbers are lost by an argument about the spacing of numbers with p bits; histories by induction. |
| C107 | The sum of the losses of one loss layer and the quotients printed by Test and Epoch, with 32-bit products, for exact numbers and `Single`. | Composition of the errors of sums and quotient (`Approx`); arithmetic of the wrapped product; induction over the losses. |
| C108 | the computation of a QuickProp step with its comparisons, over an abstract number type, run with rounded and exact numbers (Model/QuickRounding.lean) | signs of rounded results, error bounds of single operations, case analysis of the branches, induction over histories (Props/QuickRounding.lean) |
| C46, C64, C51 (LRN) | `LocalResponseNormalizationLayer` with `pow` over the reals | loop invariants, `HasDerivAt`; negations for non-square images |
| C47 | `Colorize` | argmax invariant; negation |
| C48 | `GradientTester` loops over all parameters with arbitrary loss | loop invariant |
| C49, C55 | `ActivationFunctions`, `SimpleLayer` over the reals | Mathlib derivatives; negation for softmax over maps |
| C51 | every `#pragma omp parallel for` of the host path as a program of single memory accesses per iteration | all interleavings: footprints are disjoint, hence race-free and equal to the sequential loop |
| C52 | host and device copies, shadows, moves, as a transition system | refinement to one coherent memory per history; witnesses |
| C54 | the KITTI localised error functions | case analysis over an ordered field |
| C56 | `ConfigurableFactory`: both passes over a description, character by character | rendering of an abstract description is parsed back; induction over the lines; witnesses |
| C62, C63 | `Clear(sample)`; loss sampling of `DatasetInputLayer` | loop invariants |

## Axioms of each property theorem

Printed by `#print axioms`; no theorem uses any other axiom.

| property | theorems | axioms |
|---|---|---|
| C01 | `C01_address_in_range`, `C01_address_injective`, `C01_address_surjective` | Quot.sound, propext |
| C01 | `C01_write_read` | Classical.choice, Quot.sound, propext |
| C02 | `C02_serialize_roundtrip`, `C02_serialize_empty`, `C02_serialize_injective` | Classical.choice, Quot.sound, propext |
| C03 | `C03_load_file`, `C03_load_terminates`, `C03_load_truncated` | Classical.choice, Quot.sound, propext |
| C04 | `C04_roundtrip_partial`, `C04_roundtrip_bits_partial`, `C04_large_tensor_lost` | Classical.choice, Quot.sound, propext |
| C05 | `C05_compress_in_bounds`, `C05_compress_never_overruns` | Classical.choice, Quot.sound, propext |
| C06 | `C06_reads_past_input`, `C06_writes_past_output` | propext |
| C06 | `C06_overlong_record_overruns` | Quot.sound, propext |
| C06 | `C06_wellformed_safe_partial` | Classical.choice, Quot.sound, propext |
| C07 | `C07_target_sample_unchecked` | propext |
| C07 | `C07_compressed_file` | Classical.choice, Quot.sound, propext |
| C08 | `C08_copySample_no_maps` | propext |
| C08 | `C08_copySample_success_iff`, `C08_copySample_effect`, `C08_copySample_failure`, `C08_copyMap_effect` | Classical.choice, Quot.sound, propext |
| C09 | `C09_transpose_moves`, `C09_transpose_involution` | Classical.choice, Quot.sound, propext |
| C10 | `C10_maximum`, `C10_pixelMaximum` | Classical.choice, Quot.sound, propext |
| C11 | `C11_moved_shadow_released_twice`, `C11_moved_mapping_undefined`, `C11_remapped_tensor_unreadable` | propext |
| C11 | `C11_ownership_partial`, `C11_no_leak_partial` | Quot.sound, propext |
| C12 | `C12_late_registration_undefined` | propext |
| C12 | `C12_identifiers` | Quot.sound, propext |
| C12 | `C12_protocol_partial`, `C12_misplaced_calls_ignored` | Classical.choice, Quot.sound, propext |
| C13 | `C13_generate`, `C13_snapshot` | Classical.choice, Quot.sound, propext |
| C14 | `C14_unwritable_file_undefined`, `C14_csv_columns`, `C14_csv_no_statistics` | Classical.choice, Quot.sound, propext |
| C15 | `C15_grammar_partial`, `C15_accepted_exactly`, `C15_backslash_accepted` | Classical.choice, Quot.sound, propext |
| C16 | `C16_extraction`, `C16_extraction_text`, `C16_construct` | Classical.choice, Quot.sound, propext |
| C17 | `C17_invalid_unchanged`, `C17_result_valid`, `C17_inject_again`, `C17_seed_determined_partial`, `C17_nonnumeric_seed_wins`, `C17_other_parameter_changed`, `C17_large_seed_undefined`, `C17_convolution_ignores_seed` | Classical.choice, Quot.sound, propext |
| C18 | `C18_read_partial`, `C18_absent_partial`, `C18_count_partial`, `C18_kernel_size_partial`, `C18_longer_name_read`, `C18_size_taken_from_other_parameter` | Classical.choice, Quot.sound, propext |
| C19 | `C19_feedForward_order`, `C19_feedForward_values`, `C19_cycle_diverges` | Classical.choice, Quot.sound, propext |
| C20 | `C20_addNode_registers` | Quot.sound, propext |
| C20 | `C20_backPropagate_order` | Classical.choice, Quot.sound, propext |
| C21 | `C21_second_buffer_lost` | propext |
| C21 | `C21_single_consumer_partial`, `C21_idempotent`, `C21_initialized_runs` | Classical.choice, Quot.sound, propext |
| C22 | `C22_no_nodes_undefined` | propext |
| C22 | `C22_restore`, `C22_later_nodes_kept`, `C22_truncated` | Classical.choice, Quot.sound, propext |
| C23 | `C23_complete_partial`, `C23_foreign_node_accepted` | Quot.sound, propext |
| C23 | `C23_cycle_accepted` | Classical.choice, Quot.sound, propext |
| C24 | `C24_gradient`, `C24_loss_sign` | Classical.choice, Quot.sound, propext |
| C25 | `C25_divisor_wraps` | Quot.sound, propext |
| C25 | `C25_construct_fits`, `C25_step_partial`, `C25_epoch_partial` | Classical.choice, Quot.sound, propext |
| C26 | `C26_first_weight_partial`, `C26_reset`, `C26_other_weights_stay`, `C26_flag_cleared_too_early` | Classical.choice, Quot.sound, propext |
| C27 | `C27_epochs_are_permutations`, `C27_histories_defined`, `C27_tensor_stream` | Classical.choice, Quot.sound, propext |
| C28 | `C28_large_test_set` | propext |
| C28 | `C28_every_sample_partial`, `C28_empty_test_set` | Quot.sound, propext |
| C28 | `C28_test_run` | Classical.choice, Quot.sound, propext |
| C29 | `C29_testing_images_ignored` | propext |
| C29 | `C29_dimensions_partial`, `C29_construct`, `C29_training_samples_load_partial`, `C29_large_image_never_loads`, `C29_maps` | Classical.choice, Quot.sound, propext |
| C30 | `C30_out_of_range` | Quot.sound, propext |
| C30 | `C30_training_sample`, `C30_testing_sample` | Classical.choice, Quot.sound, propext |
| C31 | `C31_maps` | Quot.sound, propext |
| C31 | `C31_training_partial`, `C31_testing_partial`, `C31_testing_sample_from_training`, `C31_testing_search_overrun`, `C31_small_image_counted` | Classical.choice, Quot.sound, propext |
| C32 | `C32_wrong_size_refused` | Quot.sound, propext |
| C32 | `C32_im2col` | Classical.choice, Quot.sound, propext |
| C33 | `C33_adjoint_partial`, `C33_adjoint_unpadded_partial`, `C33_same_convolution_undefined`, `C33_gradient_misplaced` | Classical.choice, Quot.sound, propext |
| C34 | `C34_gemm`, `C34_gemm_ignores_target`, `C34_gemv` | Classical.choice, Quot.sound, propext |
| C35 | `C35_forward`, `C35_dropout_refused` | Classical.choice, Quot.sound, propext |
| C36 | `C36_strided_pooling_accepts_misfit` | Quot.sound, propext |
| C36 | `C36_constructor`, `C36_convolution`, `C36_max_pooling`, `C36_strided_pooling_partial`, `C36_strided_pooling_misfit_undefined` | Classical.choice, Quot.sound, propext |
| C37 | `C37_sms`, `C37_sms_involution` | Classical.choice, Quot.sound, propext |
| C38 | `C38_down`, `C38_up`, `C38_adjoint`, `C38_down_up` | Classical.choice, Quot.sound, propext |
| C39 | `C39_lowest_region_misplaced` | propext |
| C39 | `C39_forward`, `C39_gradient_partial` | Classical.choice, Quot.sound, propext |
| C40 | `C40_positions_collide` | propext |
| C40 | `C40_forward`, `C40_gradient_partial` | Classical.choice, Quot.sound, propext |
| C41 | `C41_concat_loses_data`, `C41_sum_width_mismatch`, `C41_sum_height_mismatch` | propext |
| C41 | `C41_concat_refuses` | Quot.sound, propext |
| C41 | `C41_concat_forward_partial`, `C41_concat_backward_partial`, `C41_sum_partial` | Classical.choice, Quot.sound, propext |
| C42 | `C42_forward`, `C42_backward`, `C42_connect`, `C42_adjoint` | Classical.choice, Quot.sound, propext |
| C43 | `C43_reset_unconnected` | Quot.sound, propext |
| C43 | `C43_counts`, `C43_reset`, `C43_consistent`, `C43_rates` | Classical.choice, Quot.sound, propext |
| C44 | `C44_counts`, `C44_reset`, `C44_partition` | Quot.sound, propext |
| C44 | `C44_thresholds`, `C44_monotone`, `C44_nonneg`, `C44_best_partial`, `C44_undefined_iff`, `C44_report_overrun`, `C44_weights_overrun` | Classical.choice, Quot.sound, propext |
| C45 | `C45_mirrored` | Quot.sound, propext |
| C45 | `C45_patches_partial`, `C45_centre`, `C45_mean`, `C45_labels_partial`, `C45_label_not_of_centre`, `C45_large_patch_overrun` | Classical.choice, Quot.sound, propext |
| C46 | `C46_columns`, `C46_square_partial`, `C46_wide_image_stale`, `C46_tall_image_overrun`, `C46_shrinks` | Classical.choice, Quot.sound, propext |
| C47 | `C47_partial`, `C47_single_class` | Quot.sound, propext |
| C47 | `C47_negative_outputs` | Classical.choice, Quot.sound, propext |
| C48 | `C48_check`, `C48_restored`, `C48_correct_gradient`, `C48_layer` | Classical.choice, Quot.sound, propext |
| C49 | `C49_connect` | propext |
| C49 | `C49_sigmoid`, `C49_sigmoid_range`, `C49_tanh`, `C49_tanh_range`, `C49_relu`, `C49_relu_kink` | Classical.choice, Quot.sound, propext |
| C50 | `C50_accumulate`, `C50_outputs_share_data` | Classical.choice, Quot.sound, propext |
| C51 | `C51_gemm_overlapping_rows_race` | Quot.sound, propext |
| C51 | `C51_disjoint_parts`, `C51_reaches_end`, `C51_gemm`, `C51_gemm_product`, `C51_gemv`, `C51_im2col`, `C51_add`, `C51_activation_forward`, `C51_activation_backward`, `C51_softmax`, `C51_resize_forward`, `C51_resize_backward`, `C51_concat_forward`, `C51_concat_backward`, `C51_spatial_forward`, `C51_spatial_backward`, `C51_accumulate`, `C51_lrn_forward_partial`, `C51_lrn_backward_partial`, `C51_lrn_tall_image_race`, `C51_max_pooling`, `C51_strided_pooling_forward`, `C51_strided_pooling_backward`, `C51_binary_stat`, `C51_error_weights` | Classical.choice, Quot.sound, propext |
| C52 | `C52_former_shadow_overwrites`, `C52_former_shadow_fails`, `C52_former_shadow_dangles`, `C52_mapped_cannot_return`, `C52_mapped_cannot_be_shadowed`, `C52_moved_away_keeps_buffer`, `C52_copy_is_stale`, `C52_empty_fails`, `C52_orphaned_shadow` | propext |
| C52 | `C52_coherent_partial`, `C52_read` | Classical.choice, Quot.sound, propext |
| C53 | `C53_starts_at_base`, `C53_never_increases_partial`, `C53_wraps_around` | Classical.choice, Quot.sound, propext |
| C54 | `C54_outside`, `C54_inside`, `C54_bounds`, `C54_decreasing`, `C54_images`, `C54_attained` | Classical.choice, Quot.sound, propext |
| C55 | `C55_row`, `C55_partial`, `C55_maps_not_written` | Classical.choice, Quot.sound, propext |
| C56 | `C56_fully_convolutional_size_partial`, `C56_patch_size`, `C56_stacks`, `C56_stack_bounds`, `C56_join`, `C56_stack_overrun_witness`, `C56_receptive_field`, `C56_receptive_field_strided_partial`, `C56_patch_agrees_with_image`, `C56_strided_patch_too_large`, `C56_border_in_one_direction`, `C56_other_image_refused`, `C56_padding_enlarges`, `C56_size_needed`, `C56_fully_connected_step`, `C56_unknown_layer_skipped`, `C56_fields_fit`, `C56_layers`, `C56_manual`, `C56_manual_hint`, `C56_manual_zero`, `C56_manual_adds_nothing` | Classical.choice, Quot.sound, propext |
| C57 | `C57_parameter_gradients_partial`, `C57_input_gradient_partial`, `C57_input_gradient_undefined` | Classical.choice, Quot.sound, propext |
| C58 | `C58_spatial_prior` | Classical.choice, Quot.sound, propext |
| C59 | `C59_upscale`, `C59_downsample` | Classical.choice, Quot.sound, propext |
| C60 | `C60_initialize_order`, `C60_initializeWeights_order` | Classical.choice, Quot.sound, propext |
| C61 | `C61_refused` | propext |
| C61 | `C61_matching_inputs_partial`, `C61_accepted_but_undefined` | Classical.choice, Quot.sound, propext |
| C62 | `C62_clear_sample` | Classical.choice, Quot.sound, propext |
| C63 | `C63_blocks`, `C63_keeps_all` | Classical.choice, Quot.sound, propext |
| C64 | `C64_square_partial`, `C64_wide_image_ignored` | Classical.choice, Quot.sound, propext |
| C65 | `C65_gradient_partial`, `C65_data_exist`, `C65_partial_derivative_partial`, `C65_unread_output`, `C65_stopped_gradient`, `C65_sigmoid`, `C65_tanh`, `C65_relu`, `C65_resize`, `C65_upscale`, `C65_spatial_prior`, `C65_sum`, `C65_concat`, `C65_error`, `C65_convolution`, `C65_strided_pooling`, `C65_max_pooling`, `C65_segmentation_network`, `C65_softmax_copies`, `C65_lrn` | Classical.choice, Quot.sound, propext |
| C66 | `C66_input_gradient_partial`, `C66_initial`, `C66_input_penalty_partial`, `C66_penalty_slope_missing`, `C66_weight_gradient_partial`, `C66_weights_ignore_loss` | Classical.choice, Quot.sound, propext |
| C67 | `C67_load_png`, `C67_load_png_16`, `C67_load_jpg`, `C67_byte_values`, `C67_round_trip`, `C67_write_load`, `C67_write_jpg`, `C67_write_undefined`, `C67_silent_write`, `C67_silent_load`, `C67_unreachable_formats`, `C67_short_values` | Classical.choice, Quot.sound, propext |
| C68 | `C68_exclusive`, `C68_short_name_ends` | Quot.sound, propext |
| C68 | `C68_load`, `C68_directory`, `C68_descriptor`, `C68_pairs`, `C68_copy_label_partial`, `C68_copy_image_partial`, `C68_invalid_index`, `C68_copy_undefined`, `C68_alpha_fatal`, `C68_missing_files`, `C68_sixteen_bit_label`, `C68_sizes` | Classical.choice, Quot.sound, propext |
| C69 | `C69_streams` | propext |
| C69 | `C69_patch_testing_map`, `C69_patch_testing_only`, `C69_patch_files_partial` | Quot.sound, propext |
| C69 | `C69_create`, `C69_accepted`, `C69_truncated_colors`, `C69_default_keeps_kitti`, `C69_keyword_prefix`, `C69_color_words`, `C69_early_weights` | Classical.choice, Quot.sound, propext |
| C70 | `C70_create_partial`, `C70_training_only`, `C70_testing_is_training`, `C70_count_terminates`, `C70_odd` | Classical.choice, Quot.sound, propext |
| C71 | `C71_settings`, `C71_layers_are_other`, `C71_settings_are_foreign`, `C71_prefix_words` | Classical.choice, Quot.sound, propext |
| C72 | `C72_tests_do_not_matter`, `C72_nothing_carried_over`, `C72_split_hybrid`, `C72_split_partial`, `C72_rows`, `C72_diluted` | Quot.sound, propext |
| C72 | `C72_input_layer`, `C72_tensor_stream`, `C72_tests_do_not_matter_stream`, `C72_test_loss`, `C72_momentum_lost`, `C72_momentum_survives_load`, `C72_stale_epoch` | Classical.choice, Quot.sound, propext |
| C73 | `C73_again` | Quot.sound, propext |
| C73 | `C73_second_factory`, `C73_same_parameters`, `C73_shared_partial`, `C73_single`, `C73_unmarked_removes` | Classical.choice, Quot.sound, propext |
| C74 | `C74_documented_partial`, `C74_script`, `C74_save_load`, `C74_prompt_goes_on`, `C74_prompt_ends`, `C74_effects`, `C74_nameless`, `C74_tstat_alone`, `C74_graph_misread`, `C74_load_misread`, `C74_numbers_misread`, `C74_set_epochs`, `C74_space_in_name`, `C74_quit_not_recognised`, `C74_prefixes` | Classical.choice, Quot.sound, propext |
| C75 | `C75_padding`, `C75_coordinates_partial`, `C75_coordinates_undefined`, `C75_classify_partial`, `C75_classify_undefined` | Classical.choice, Quot.sound, propext |
| C76 | `C76_trim_missing` | propext |
| C76 | `C76_compress_in_place`, `C76_compress_missing_input` | Quot.sound, propext |
| C76 | `C76_trim`, `C76_trim_repairs`, `C76_trim_ends`, `C76_trim_crash_partial`, `C76_trim_crash_loses`, `C76_trim_word_erases`, `C76_compress`, `C76_compress_truncated_mixes`, `C76_same_as_list`, `C76_list_converts`, `C76_make_file`, `C76_direct_partial`, `C76_direct_undefined`, `C76_missing_pair_hides` | Classical.choice, Quot.sound, propext |
| C77 | `C77_late_selection` | Quot.sound, propext |
| C77 | `C77_file`, `C77_lines`, `C77_crash`, `C77_select_erases`, `C77_start_erases`, `C77_missing_directory`, `C77_row` | Classical.choice, Quot.sound, propext |
| C78 | `C78_counts`, `C78_counts_pixels_partial`, `C78_table`, `C78_ratios`, `C78_correction_balances`, `C78_weights_applied_twice`, `C78_weighted_corrections_mislead`, `C78_one_map`, `C78_failed_sample_counted`, `C78_uninitialised_counted`, `C78_too_many_maps` | Classical.choice, Quot.sound, propext |
| C79 | `C79_open`, `C79_commands`, `C79_write_back_partial`, `C79_write_loses`, `C79_end_of_input_loops`, `C79_reshape_word`, `C79_beyond_erases`, `C79_reshape_wraps`, `C79_reshape_negative`, `C79_write_refused`, `C79_truncated_shows_previous`, `C79_transpose_twice` | Classical.choice, Quot.sound, propext |
| C80 | `C80_set_one_overruns` | Quot.sound, propext |
| C80 | `C80_set_all`, `C80_sms`, `C80_down`, `C80_up`, `C80_im2col`, `C80_col2im`, `C80_col2im_host_partial`, `C80_same_convolution_differs`, `C80_set_one_partial`, `C80_set_one_misses`, `C80_im2col_overruns`, `C80_sigmoid`, `C80_tanh`, `C80_max_pooling`, `C80_max_pooling_gradient`, `C80_advanced_pooling`, `C80_tie_differs` | Classical.choice, Quot.sound, propext |
| C81 | `C81_same_as_host_partial`, `C81_read_partial`, `C81_training_partial`, `C81_helper_stale` | Classical.choice, Quot.sound, propext |
| C82 | `C82_parameters_partial`, `C82_order_partial`, `C82_seed_partial`, `C82_longer_name`, `C82_half_a_size`, `C82_not_checked` | Classical.choice, Quot.sound, propext |
| C83 | `C83_convolution_partial`, `C83_normalisation_partial`, `C83_pooling_partial`, `C83_activation_partial`, `C83_upscale_partial`, `C83_output_partial`, `C83_classes`, `C83_spatial_prior`, `C83_fully_connected_partial`, `C83_no_neurons`, `C83_longer_name`, `C83_half_a_size`, `C83_flatten_drops` | Classical.choice, Quot.sound, propext |
| C84 | `C84_image_is_patches_partial`, `C84_training_sample_partial`, `C84_label_shifted`, `C84_label_shifted_differs`, `C84_padding_differs` | Classical.choice, Quot.sound, propext |
| C85 | `C85_gradient_partial`, `C85_downsampling_fatal`, `C85_chain`, `C85_downsampling_witness` | Classical.choice, Quot.sound, propext |
| C86 | `C86_batches`, `C86_reported_loss`, `C86_step_partial`, `C86_step_shrinks`, `C86_tensor_stream` | Classical.choice, Quot.sound, propext |
| C87 | `C87_kernel_inputs_partial`, `C87_groups_ignored` | propext |
| C87 | `C87_regions`, `C87_reset_keeps_bias` | Quot.sound, propext |
| C87 | `C87_fan`, `C87_initial_weights`, `C87_bounds`, `C87_chain`, `C87_reset_partial` | Classical.choice, Quot.sound, propext |
| C88 | `C88_test`, `C88_hybrid_test`, `C88_training`, `C88_no_snapshots` | Quot.sound, propext |
| C88 | `C88_recognition`, `C88_hybrid_recognition`, `C88_perfect_partial`, `C88_absent_class` | Classical.choice, Quot.sound, propext |
| C89 | `C89_whole_test_set`, `C89_hybrid_test_set`, `C89_determined` | Classical.choice, Quot.sound, propext |
| C90 | `C90_training`, `C90_no_snapshots`, `C90_test`, `C90_counts`, `C90_hundred_partial`, `C90_later_rows`, `C90_frames_exceed`, `C90_first_row_short`, `C90_test_too_fast` | Classical.choice, Quot.sound, propext |
| C91 | `C91_batch_partial`, `C91_reads`, `C91_described_partial`, `C91_test_set_partial`, `C91_batch_size_partial`, `C91_stale_normalisation` | Classical.choice, Quot.sound, propext |
| C92 | `C92_values_partial`, `C92_gradient_partial`, `C92_parameters`, `C92_training_partial`, `C92_reported_loss_partial`, `C92_splits`, `C92_batches`, `C92_sessions_partial` | Classical.choice, Quot.sound, propext |
| C93 | `C93_counters`, `C93_bounded`, `C93_exact_partial`, `C93_fifty`, `C93_wrong_rates` | Classical.choice, Quot.sound, propext |
| C94 | `C94_overflow` | propext |
| C94 | `C94_forward`, `C94_no_overflow`, `C94_convolution`, `C94_rectifier`, `C94_max_pooling`, `C94_strided_pooling` | Classical.choice, Quot.sound, propext |
| C95 | `C95_graph_file`, `C95_names_partial`, `C95_name_clash`, `C95_ports`, `C95_before_initialize`, `C95_sizes` | Classical.choice, Quot.sound, propext |
| C96 | `C96_report`, `C96_missing_name`, `C96_names_partial`, `C96_name_clash`, `C96_wide_count` | Classical.choice, Quot.sound, propext |
| C97 | `C97_directory` | Quot.sound, propext |
| C97 | `C97_settings_partial`, `C97_defaults`, `C97_device_partial`, `C97_missing_device_undefined`, `C97_longer_word`, `C97_bare_word`, `C97_kernels`, `C97_unknown_place` | Classical.choice, Quot.sound, propext |
| C98 | `C98_chain`, `C98_network_partial`, `C98_decision`, `C98_network_decision_partial`, `C98_accurate` | Classical.choice, Quot.sound, propext |
| C99 | `C99_connect`, `C99_node`, `C99_inputs_refused`, `C99_missing_input_undefined` | propext |
| C99 | `C99_sizes_unchecked` | Quot.sound, propext |
| C99 | `C99_sees_current_partial`, `C99_samples`, `C99_one_tensor_unset`, `C99_resize_undefined`, `C99_dataset_node`, `C99_dataset_connect`, `C99_simple_connect` | Classical.choice, Quot.sound, propext |
| C100 | `C100_read`, `C100_distinct`, `C100_negative` | Classical.choice, Quot.sound, propext |
| C101 | `C101_report`, `C101_reports`, `C101_collector`, `C101_too_few` | Classical.choice, Quot.sound, propext |
| C102 | `C102_refines`, `C102_reported_partial`, `C102_text_silent`, `C102_destroyed_undefined` | Classical.choice, Quot.sound, propext |
| C103 | `C103_throughput_partial`, `C103_overstated`, `C103_built_in`, `C103_network` | Classical.choice, Quot.sound, propext |
| C104 | `C104_picture_partial`, `C104_negative_undefined`, `C104_missing_sample_undefined`, `C104_layer_view_partial` | Classical.choice, Quot.sound, propext |
| C105 | `C105_shown_partial`, `C105_distinct`, `C105_iterations_hidden` | Classical.choice, Quot.sound, propext |
| C106 | `C106_overflow` | propext |
| C106 | `C106_rule` | Quot.sound, propext |
| C106 | `C106_no_overflow`, `C106_iteration_partial`, `C106_step_partial`, `C106_moves`, `C106_frozen`, `C106_lost` | Classical.choice, Quot.sound, propext |
| C107 | `C107_epoch_partial`, `C107_too_large`, `C107_overstated`, `C107_test_partial`, `C107_epoch_rounded_partial`, `C107_not_counted` | Classical.choice, Quot.sound, propext |
| C108 | `C108_uphill` | propext |
| C108 | `C108_exact`, `C108_rule`, `C108_step`, `C108_downhill_partial`, `C108_limited`, `C108_no_division_by_zero` | Classical.choice, Quot.sound, propext |

## Trusted base

* Lean's kernel and the axioms in the table above (at most `propext`, `Classical.choice`, `Quot.sound`).
* The reading of the C++ recorded in the comments of `Verif/Model`: nothing ties the model to the code but
  the cited lines.
* Assumptions about what lies outside the model:
  * *Arithmetic.*  Ring/field/real arithmetic stands for `float`/`double` where the theorem says so.  C10 is
    over a linear order, so NaN scores are outside it; the images of width or height one in C30 divide zero by zero, which a field hides.
    C93, C94, C98, C106, C108 and parts of C107 use single precision with rounding to nearest, ties to even, and gradual underflow (`Base/Flt.lean`); there every
    operation is rounded once (no fused or extended operations: `-std=c++11`, SSE) and the exponent has no upper bound, so that
    infinities and NaN are outside them, except in `C94_no_overflow` and `C106_no_overflow`, where a result of 2^128 or more is a separate outcome.
  * *Standard library.*  `std::shuffle` permutes; `std::regex` (C locale, bracket expressions with
    POSIX meaning) accepts the language of its expression and its groups are determined by the expression;
    `atoi` is undefined when the number does not fit; `ifstream`/`istream` set the eof and fail bits as the
    standard says.
  * *Parallel loops (C51).*  Memory is sequentially consistent for race-free programs; distinct
    buffers of a loop do not alias; GEMM is called with a row distance of at least the number of columns (the
    theorem shows that the others race).
  * *Device (C52).*  One in-order command queue (`src/util/Init.cpp:255`), allocations succeed, kernels
    read and write only the buffers passed to them.
  * *Datasets.*  The stream classes deliver the stored tensors (C03, C07 prove this for the file formats).

## What is not modelled

* The OpenCL kernels that are built but never enqueued; the compilation of the kernels (`CLHelper`); the BLAS
  branches (`BUILD_BLAS`, MKL, Accelerate, clBLAS), which call external code.
* libpng and libjpeg (C67 starts from the decoded samples), values outside the enumeration of KITTI categories,
  the windows of `TensorViewer`, logging, the creation of context and queue in `Init.cpp`, console output other than that of C96, C101, C105 and C107.
* Of the command line tools: `testOpenCL`, the texts printed by the others; the unused grammar in
  `parser/`; the build system.
* Dropout on the device (`src/net/ConvolutionLayer.cpp`, refused on the host, C35_dropout_refused).
* Timing, performance, memory exhaustion.

## Where the code breaks a property

Each entry is a theorem about the model of the unchanged code, beside the `_partial` theorem that says what
does hold.

| property | what happens | theorem |
|---|---|---|
| C04 | from 2^30 elements on the 32-bit byte counter wraps and the data is lost | `C04_large_tensor_lost` |
| C06 | decompressing malformed bytes reads past the input and writes past the output | `C06_reads_past_input`, `C06_writes_past_output` |
| C07 | the fast path of the stream does not check the target sample | `C07_target_sample_unchecked` |
| C11 | moving a shadow or a mapped tensor releases a buffer twice or reads unmapped memory; a re-mapped tensor is unreadable | `C11_moved_shadow_released_twice`, `C11_moved_mapping_undefined`, `C11_remapped_tensor_unreadable` |
| C12 | a statistic registered after `Initialize` is indexed out of bounds | `C12_late_registration_undefined` |
| C14 | an unwritable file is used without check | `C14_unwritable_file_undefined` |
| C15 | a backslash in a value is accepted by the regular expression | `C15_backslash_accepted` |
| C17 | non-numeric seeds stay, keys ending in "seed" are changed, large seeds overflow, the convolution layer ignores its seed | `C17_nonnumeric_seed_wins`, `C17_other_parameter_changed`, `C17_large_seed_undefined`, `C17_convolution_ignores_seed` |
| C18 | parameters are read from longer names that end in the name; sizes without `x` take the height from elsewhere | `C18_longer_name_read`, `C18_size_taken_from_other_parameter` |
| C21 | readers of a node's second buffer are redirected to the first | `C21_second_buffer_lost` |
| C22 | saving or loading a network without nodes is undefined | `C22_no_nodes_undefined` |
| C23 | connections to foreign nodes and cycles are reported complete | `C23_foreign_node_accepted`, `C23_cycle_accepted` |
| C25 | the divisor of the average gradient is a 32-bit product and wraps around | `C25_divisor_wraps` |
| C26 | the first-iteration flag of QuickProp is cleared after the first weight | `C26_flag_cleared_too_early`, `C26_other_weights_stay` |
| C28 | the number of test batches goes through `float`; an empty test set is fatal | `C28_large_test_set`, `C28_empty_test_set` |
| C29 | the sizes of most testing images are ignored, such samples never load | `C29_testing_images_ignored`, `C29_large_image_never_loads` |
| C31 | testing patches use the wrong offset; images smaller than the patch count as 2^32-1 patches | `C31_testing_sample_from_training`, `C31_testing_search_overrun`, `C31_small_image_counted` |
| C33, C57 | COL2IM compares the column with the height: writes outside the image for padded kernels, misplaced gradients on tall images | `C33_same_convolution_undefined`, `C33_gradient_misplaced`, `C57_input_gradient_undefined` |
| C36 | strided pooling accepts images smaller than its region | `C36_strided_pooling_accepts_misfit`, `C36_strided_pooling_misfit_undefined` |
| C39 | the gradient of a region of lowest values goes to pixel (0,0) | `C39_lowest_region_misplaced` |
| C40 | positions above 2^24 collide because they are stored as floats | `C40_positions_collide` |
| C41 | concatenation accepts inputs of different size and loses data; the sum layer accepts different widths and then throws, and reads an uninitialised pointer for different heights | `C41_concat_loses_data`, `C41_sum_width_mismatch`, `C41_sum_height_mismatch` |
| C43 | `Reset` before `Connect` dereferences a null pointer | `C43_reset_unconnected` |
| C44 | the report indexes with 2^32-1 if no threshold has an F1 value; several maps overrun the weights | `C44_report_overrun`, `C44_weights_overrun` |
| C45 | labels are not those of the centre pixel; large patches read outside the image | `C45_label_not_of_centre`, `C45_large_patch_overrun` |
| C65 | deltas of outputs that no layer reads are never written: old memory enters the gradient; connections that do not propagate lose gradients of the parameters behind them; softmax hands on the delta of its output instead of multiplying with the derivative | `C65_unread_output`, `C65_stopped_gradient`, `C65_softmax_copies` |
| C66 | the deltas of slope and offset are the gradient of the sum of the outputs: the incoming deltas are not used; the regulariser part of the input delta lacks the slope factor | `C66_weights_ignore_loss`, `C66_weight_gradient_partial` |
| C67 | storing values above 1 is undefined; storing anything but one RGB sample leaves an empty file and reports nothing; palettes, other depths, missing JPEG files load as nothing without a report; `.Tensor` and `.jpeg` are never recognised because three characters are compared with six or four | `C67_write_undefined`, `C67_silent_write`, `C67_silent_load`, `C67_unreachable_formats` |
| C68 | copying from an image list never returns a value; short names end the import; missing JPEG pairs count as tensors; alpha channels and 16-bit colours of labels are not handled; empty directory names are undefined | `C68_copy_undefined`, `C68_short_name_ends`, `C68_missing_files`, `C68_alpha_fatal`, `C68_sixteen_bit_label` |
| C69 | a truncated list of colours is completed with black; words are colours; weights before the classes are lost; `localized_error=default` does not undo `kitti`; keywords match as prefixes; the memory map of the testing stream shows the training file; testing-only patch datasets end the program | `C69_truncated_colors`, `C69_color_words`, `C69_early_weights`, `C69_default_keeps_kitti`, `C69_keyword_prefix`, `C69_patch_testing_map`, `C69_patch_testing_only` |
| C46, C64 | the column loop of the normalisation runs to the height: stale columns, or overrun on tall images | `C46_wide_image_stale`, `C46_tall_image_overrun`, `C64_wide_image_ignored` |
| C47 | the search for the best class starts at the smallest positive float | `C47_negative_outputs` |
| C51 | data race of the normalisation on tall images; of GEMM for overlapping rows | `C51_lrn_tall_image_race`, `C51_gemm_overlapping_rows_race` |
| C52 | former shadows keep the other tensor's device buffer, mapped tensors cannot return, copies are stale, ... | `C52_former_shadow_overwrites` and the other witnesses of C52 |
| C53 | the iteration index wraps after 2^32 iterations and the rate jumps back | `C53_wraps_around` |
| C55 | softmax does not write values along the maps | `C55_maps_not_written` |
| C56 | stacks are not checked, borders only if both directions need one, over-padding, strided patches, uninitialised size, disagreeing passes | `C56_stack_overrun_witness`, `C56_border_in_one_direction`, `C56_padding_enlarges`, `C56_strided_patch_too_large`, `C56_size_needed`, `C56_fully_connected_step` |
| C61 | inputs of different shape but equal element count are accepted and read out of bounds | `C61_accepted_but_undefined` |
| C70 | on POSIX systems without `nommap`, the testing images of a patch dataset are read from the training file | `C70_testing_is_training` |
| C71 | a setting's keyword matches any line that begins with it (`l1_weight=0.1` sets `l1`), a bare `lr` ends the program and `lr=` leaves the rate undefined | `C71_prefix_words` |
| C72 | `testing_trainer.SetEpoch` resets the only trainer after every training command, so the momentum is lost; the epoch of a test's row is stale after `set epoch`; a test always runs one batch more than needed and averages over it | `C72_momentum_lost`, `C72_momentum_survives_load`, `C72_stale_epoch`, `C72_diluted` |
| C73 | the word `flatten` anywhere in a line, for example at the end of a layer line, removes the line from the network for whole images only; `testing_params[p]` is then read outside its bounds | `C73_unmarked_removes` |
| C74 | `graph` looks for `test` in the whole line; option values are found by their key anywhere in the line; commands are recognised by prefix, but `quit` only by equality, so that it is missed in a script with carriage returns | `C74_graph_misread`, `C74_load_misread`, `C74_numbers_misread`, `C74_set_epochs`, `C74_space_in_name`, `C74_quit_not_recognised`, `C74_prefixes` |
| C75 | the loop that clears the coordinates below the image runs over `x < height`: for a padded image that is higher than wide it writes beyond the end of the helper tensor | `C75_coordinates_undefined`, `C75_classify_undefined` |
| C76 | `tensorStreamTool` truncates the file before writing, takes words as 0 and loops forever on a missing file; `compressTensorStream` empties its output before checking its input; direct labels are read without checking the channels; tensors without elements end a file for the loader but are written by the converter; a truncated record is compressed with values of the record before | `C76_trim_crash_loses`, `C76_trim_word_erases`, `C76_trim_missing`, `C76_compress_in_place`, `C76_compress_missing_input`, `C76_direct_undefined`, `C76_missing_pair_hides`, `C76_compress_truncated_mixes` |
| C77 | Rows recorded earlier are lost: selecting an experiment truncates its file, even if it was written by the same program; every start truncates csv/unnamed.csv; without the directory csv the program dereferences a null pointer at the start; a selection while recording is ignored without a report | `C77_select_erases`, `C77_start_erases`, `C77_missing_directory`, `C77_late_selection` |
| C78 | The table headed "ignoring weights" includes the class weights and the one headed "not ignoring weights" includes them squared, because GetTrainingSample has already multiplied them in; corrections from the second table do not balance; samples that fail to load are counted from whatever the tensors hold; label maps beyond the number of classes index out of bounds | `C78_weights_applied_twice`, `C78_weighted_corrections_mislead`, `C78_failed_sample_counted`, `C78_uninitialised_counted`, `C78_too_many_maps` |
| C79 | `write` replaces the whole file by the one tensor; the loop does not end at the end of the input; a failed extraction is not checked, so later variables are never stored to; a number beyond the end, an unwritable file and a truncated record are not reported; `Reshape` compares sizes modulo 2^64 | `C79_write_loses`, `C79_end_of_input_loops`, `C79_reshape_word`, `C79_beyond_erases`, `C79_reshape_wraps`, `C79_write_refused`, `C79_truncated_shows_previous` |
| C80 | filling one sample on the device (`SETSAMPLE`) multiplies by the number of samples instead of maps; IM2COL on the device does not check the size of the target; COL2IM on host and device differ for padded convolutions; ties in max pooling are broken by column on the host, by row on the device | `C80_set_one_misses`, `C80_set_one_overruns`, `C80_im2col_overruns`, `C80_same_convolution_differs`, `C80_tie_differs` |
| C81 | the helper output of `DatasetInputLayer` is written on the host without being moved there: a layer that works on it on the device sees the first batch for ever | `C81_helper_stale` |
| C82 | layer descriptors: names that end in a known name are taken for it, a size of one number takes its second number from another parameter, and nothing is checked, so that a stride of 0 divides by zero | `C82_longer_name`, `C82_half_a_size`, `C82_not_checked` |
| C83 | lines of network descriptions: names that end in a known name, sizes of one number, fully connected lines without neurons, and lines that contain the word flatten are misread | `C83_longer_name`, `C83_half_a_size`, `C83_no_neurons`, `C83_flatten_drops` |
| C84 | patch training and whole images: with kernels of even size and no reduction the learnt value appears one pixel before the labelled one; with padding the two networks differ | `C84_label_shifted`, `C84_label_shifted_differs`, `C84_padding_differs` |
| C85 | down-sampling behind a layer with parameters is accepted by the factory and ends the program in the first backward pass | `C85_downsampling_fatal`, `C85_downsampling_witness` |
| C86 | the averaged gradient is multiplied by the probability of loss sampling instead of divided by it; on average the data term of a step is the square of the probability times the one without loss sampling, while the reported loss is corrected properly | `C86_step_shrinks`, `C86_step_partial` |
| C87 | the range of the initial weights ignores groups; `reset` of the training tool, documented to reinitialise the parameters, only draws new weights and keeps trained biases | `C87_groups_ignored`, `C87_reset_keeps_bias` |
| C88 | the average intersection over union divides by all classes, also those that neither occur nor are predicted; a test without errors is then reported below 100 percent | `C88_absent_class`, `C88_perfect_partial` |
| C90 | the three percentages of QuickProp do not add up to 100 in the first row after a reset (with one network for training and testing: after every command); a fourth one ("Case M") is always 0. The frame rate of a test counts the positions of all batches and exceeds the number of images per second | `C90_first_row_short`, `C90_test_too_fast`, `C90_frames_exceed` |
| C91 | normalisation of images that are wider than high leaves pixels of the output as they were, so that the result for an image depends on what was computed before | `C91_stale_normalisation` |
| C93 | `BinaryStatLayer` counts pixels in `float` variables. Adding one to 2^24 gives 2^24, so that from 16777216 pixels of a kind on (sixteen images of a megapixel) the counter stands still, and the rates of long tests drift towards 50 % (`ConfusionMatrixLayer` counts in `long double`) | `C93_wrong_rates`, `C93_fifty`, `C93_bounded` |
| C95 | unique_name is public and AddNode does not look whether a name is taken: a node called node0 by the user shares its name with the first unnamed one | `C95_name_clash` |
| C96 | two long class names with the same first eight characters look the same in the report; counts of 10^12 and more shift the columns of their row | `C96_name_clash`, `C96_wide_count` |
| C97 | a platform or device number beyond the existing ones is out of bounds; `opencl_device_name=7` sets the device to 0; a bare `opencl_device` throws | `C97_missing_device_undefined`, `C97_longer_word`, `C97_bare_word` |
| C99 | resizing a tensor that feeds a network, feeding from one tensor, wrong dimensions, too few buffers and missing inputs are not refused: released, uninitialised or missing memory is read | `C99_resize_undefined`, `C99_one_tensor_unset`, `C99_sizes_unchecked`, `C99_dataset_connect`, `C99_missing_input_undefined` |
| C102 | Statistics of the sparsity layer: descriptors are members of the first layer, so destroying it leaves dangling pointers in the collector; layers built from configuration text never register and report nothing | `C102_destroyed_undefined`, `C102_text_silent` |
| C103 | runBenchmark makes its image before it reads `pbatchsize`, but counts `pbatchsize` images per pass: the throughput is overstated by that factor, also for the built-in networks | `C103_overstated`, `C103_built_in` |
| C104 | the viewer converts negative values to `unsigned char`, which is undefined, and does not check the sample | `C104_negative_undefined`, `C104_missing_sample_undefined` |
| C105 | the line of training settings does not show the number of iterations | `C105_iterations_hidden` |
| C106 | In single precision, steps that are 2^26 times smaller than the weight are lost in every iteration: the weight stays although its gradient is never zero (the kept steps are added up by the momentum only, not with the weight) | `C106_frozen`, `C106_lost` |
| C107 | The number of pixels in the printed loss per sample is a 32-bit product: with 2^32 pixels or more in a test, the loss printed is too large or infinite; small losses after large ones are not counted | `C107_too_large`, `C107_overstated`, `C107_not_counted` |
| C108 | With `mu` below one, QuickProp can step uphill: after a slope has changed its sign, `mu` times the last step is taken, which continues in the old direction | `C108_uphill` |

Further observations that the theorems build around: the reference GEMV takes the number of results as `M`
also for a transposed matrix (C34 states that convention); `GradientTester` loops forever for `skip` =
UINT_MAX and counts a NaN quotient as correct (C48).

## Mutation testing

`seeded/LOG.jsonl` has one line per attempt: the definition of the model that was edited in a scratch copy,
the edit, the claim it breaks, the theorems whose proofs failed and the theorems that were added or tightened
because of it.  A rejected edit counts only if the statement itself became false; where a
proof failed although the statement would still have been true, the property was strengthened (see the
`tightened` entries).
