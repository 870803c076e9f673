{"id": "C01", "title": "Vectorising state, costate and data and reading them back is lossless", "statement": "assemble_tensor followed by disassemble_tensor (dim 0) with the returned plans gives back every block, key, shape and value of the three dictionaries; the only difference allowed is that blocks without entries disappear.", "quantifier": "all dictionaries of dictionaries of tensors of any rank >= 1, any number of blocks and keys, any sizes including zero", "why_tests_cant": "the number of blocks, keys, ranks and sizes is unbounded; an offset error only shows for particular combinations of shapes", "anchors": ["neuro_shooting/state_costate_and_data_dictionary_utils.py:assemble_tensor", "neuro_shooting/state_costate_and_data_dictionary_utils.py:disassemble_tensor", "neuro_shooting/state_costate_and_data_dictionary_utils.py:_assemble_generic_dict", "neuro_shooting/state_costate_and_data_dictionary_utils.py:_disassemble_dict"]}
{"id": "C02", "title": "The assembled vector is exactly state, then costate, then data", "statement": "The vector returned by assemble_tensor is the concatenation of the row-major flattenings of all tensors, state first, then costate, then data, blocks and keys in sorted order; its length is the total number of elements, nothing is dropped or repeated.", "quantifier": "all dictionaries of dictionaries of tensors", "why_tests_cant": "unbounded family of shapes and key sets", "anchors": ["neuro_shooting/state_costate_and_data_dictionary_utils.py:assemble_tensor", "neuro_shooting/state_costate_and_data_dictionary_utils.py:_assemble_generic_dict_of_dicts"]}
{"id": "C03", "title": "Disassembling a time-stacked solution works row by row", "statement": "disassemble_tensor with dim=1 on a stack of T vectors yields tensors with one extra leading time dimension whose slice at time i is the dim=0 disassembly of vector i, for every i.", "quantifier": "all plans, all T >= 0, all stacks of vectors of the planned length", "why_tests_cant": "every T and plan; a row/column mix-up is invisible for T=1 or for single-tensor plans", "anchors": ["neuro_shooting/state_costate_and_data_dictionary_utils.py:disassemble_tensor", "neuro_shooting/state_costate_and_data_dictionary_utils.py:_disassemble_dict", "neuro_shooting/shooting_blocks.py:ShootingBlockBase.forward"]}
{"id": "C04", "title": "Vectorisation never returns silently wrong data", "statement": "assemble_tensor raises when one of the three sections has no tensors at all; disassemble_tensor raises for dim other than 0 and 1, for a missing plan, and for a vector shorter than the plan needs; it accepts exactly the vectors that are at least as long as the plan and ignores the surplus.", "quantifier": "all inputs", "why_tests_cant": "error behaviour has to hold for every shape and every length", "anchors": ["neuro_shooting/state_costate_and_data_dictionary_utils.py:assemble_tensor", "neuro_shooting/state_costate_and_data_dictionary_utils.py:disassemble_tensor"]}
{"id": "C05", "title": "Merging a block into a dictionary of blocks", "statement": "Merging a named block raises exactly when the name is already a key; otherwise the result has exactly the old blocks, unchanged, plus the new one (if one is given), and lookups of every other block are unaffected.", "quantifier": "all dictionaries, names, and absent/present operands", "why_tests_cant": "any number of blocks and names", "anchors": ["neuro_shooting/state_costate_and_data_dictionary_utils.py:_merge_state_costate_or_data_dict_with_generic_dict_of_dicts"]}
{"id": "C06", "title": "Gradient tuples are put back under the right names", "statement": "Flattening a dictionary of dictionaries (or a dictionary of parameter objects) to the tuple handed to autograd and rebuilding a dictionary from a tuple of the same length stores the i-th gradient under the prefixed name of the i-th variable; no two variables share a slot and the prefix never reorders or merges keys.", "quantifier": "all dictionaries, tuples and prefixes; parameter objects without None entries (with None entries the code shifts slots, which is shown separately)", "why_tests_cant": "alignment depends on the key order of arbitrary user-chosen names", "anchors": ["neuro_shooting/state_costate_and_data_dictionary_utils.py:compute_tuple_from_generic_dict_of_dicts", "neuro_shooting/state_costate_and_data_dictionary_utils.py:extract_dict_of_dicts_from_tuple_based_on_generic_dict_of_dicts", "neuro_shooting/state_costate_and_data_dictionary_utils.py:compute_tuple_from_parameter_objects", "neuro_shooting/state_costate_and_data_dictionary_utils.py:extract_dict_from_tuple_based_on_parameter_objects"]}
{"id": "C07", "title": "Concatenating blocks along the feature dimension and splitting them again is lossless", "statement": "For blocks with the same keys and shapes agreeing outside the concatenation dimension, splitting the concatenated dictionary by the same block structure returns every block's tensors exactly; the pieces are disjoint and cover the whole dimension.", "quantifier": "any number of blocks, keys, ranks, sizes, and concatenation dimensions 0 to 4", "why_tests_cant": "running offsets per key go wrong only with three or more blocks of different sizes", "anchors": ["neuro_shooting/state_costate_and_data_dictionary_utils.py:_concatenate_dict_of_dicts", "neuro_shooting/state_costate_and_data_dictionary_utils.py:_deconcatenate_based_on_generic_dict_of_dicts"]}
{"id": "C08", "title": "Concatenation rejects blocks that do not fit", "statement": "Concatenation of blocks whose key sets differ raises instead of returning a partial result, and concatenation dimensions outside 0..4 are rejected when splitting.", "quantifier": "all dictionaries of blocks", "why_tests_cant": "all possible key-set mismatches cannot be sampled", "anchors": ["neuro_shooting/state_costate_and_data_dictionary_utils.py:_concatenate_dict_of_dicts", "neuro_shooting/state_costate_and_data_dictionary_utils.py:_deconcatenate_based_on_generic_dict_of_dicts"]}
{"id": "C09", "title": "Checkpointed integration outputs exactly the requested times", "statement": "For every strictly increasing list of at least two times and every checkpoint setting, the points flagged for output over all created intervals, concatenated, are exactly the requested times in order, each exactly once.", "quantifier": "all strictly increasing time vectors and all checkpoint lists starting and ending with them", "why_tests_cant": "the merge of two sorted sequences has unboundedly many interleavings", "anchors": ["neuro_shooting/generic_integrator.py:GenericIntegrator.create_integration_time_intervals"]}
{"id": "C10", "title": "Checkpoint intervals chain without gaps", "statement": "Each created interval is strictly increasing with at least two points, starts where the previous one ended, the first starts at the first requested time and the last ends at the last requested time; every interval end is a checkpoint.", "quantifier": "all strictly increasing time vectors and checkpoint lists", "why_tests_cant": "unbounded interleavings of times and checkpoints", "anchors": ["neuro_shooting/generic_integrator.py:GenericIntegrator.create_integration_time_intervals"]}
{"id": "C11", "title": "Checkpointing does not change the integration result", "statement": "For an integrator whose results can be restarted (integrating to a point and continuing equals integrating through), the checkpointed solution equals the direct solution at every requested time, with the same number of rows.", "quantifier": "all right-hand sides, initial values, strictly increasing times and checkpoint lists; integrators with the restart property", "why_tests_cant": "equality must hold for every schedule of checkpoints", "anchors": ["neuro_shooting/generic_integrator.py:GenericIntegrator._integrate_checkpointed", "neuro_shooting/generic_integrator.py:GenericIntegrator.integrate"]}
{"id": "C12", "title": "Checkpoint configuration errors are reported, not ignored", "statement": "Fewer than two times, or setting both checkpoint options, raises ValueError; setting neither integrates directly. Decreasing time vectors (integration backwards in time) are not handled by the interval construction: requested points are lost.", "quantifier": "all time vectors and option combinations", "why_tests_cant": "the failing inputs are a region of the input space, not a point", "anchors": ["neuro_shooting/generic_integrator.py:GenericIntegrator.create_integration_time_intervals", "neuro_shooting/generic_integrator.py:GenericIntegrator.integrate"]}
{"id": "C13", "title": "Integrator selection is validated", "statement": "Constructing an integrator succeeds exactly for a known library with a method of that library (defaults are the first entries); a fixed step size is added to the options only for fixed-step odeint methods and never overrides a user-given one; all other options are kept.", "quantifier": "all library names, method names, options and step sizes", "why_tests_cant": "strings and option dictionaries are unbounded", "anchors": ["neuro_shooting/generic_integrator.py:GenericIntegrator.__init__"]}
{"id": "C14", "title": "Looking up time-dependent parameters never fails, whatever was asked before", "statement": "For every sequence of queried times, in any order, get_parameters_at_time returns one of the stored parameter sets; a query below the start returns the first and a query at or after the last bucket returns the last one.", "quantifier": "all numbers of buckets >= 1, all sequences of query times (adaptive integrators go back and forth)", "why_tests_cant": "depends on the whole query history through a cached index", "anchors": ["neuro_shooting/shooting_blocks.py:ParticleFreeParameterFunc.get_parameters_at_time"]}
{"id": "C15", "title": "The parameters returned for a time are those of the bucket containing it", "statement": "get_parameters_at_time returns the parameters of the closest bucket start that is not later than the queried time, independently of earlier queries.", "quantifier": "all query histories", "why_tests_cant": "depends on the whole query history through a cached index", "anchors": ["neuro_shooting/shooting_blocks.py:ParticleFreeParameterFunc.get_parameters_at_time"]}
{"id": "C16", "title": "The learning rate never increases and never falls below its minimum", "statement": "Over any sequence of metric values, each parameter group's learning rate is non-increasing, and stays at or above its min_lr if it started there.", "quantifier": "all metric histories (including NaN and infinities), all groups and settings with 0 <= eps", "why_tests_cant": "unbounded histories", "anchors": ["neuro_shooting/custom_lr_scheduler.py:CustomReduceLROnPlateau.step", "neuro_shooting/custom_lr_scheduler.py:CustomReduceLROnPlateau._reduce_lr"]}
{"id": "C17", "title": "A reduction needs more than `patience` consecutive non-improving epochs outside cooldown", "statement": "If the learning rate changes (or convergence is declared) at a step, then the last patience+1 steps were all non-improving with respect to the best value at that time, none of them was in cooldown and no reduction happened in between; conversely such a run triggers a reduction attempt.", "quantifier": "all metric histories and settings", "why_tests_cant": "unbounded histories", "anchors": ["neuro_shooting/custom_lr_scheduler.py:CustomReduceLROnPlateau.step"]}
{"id": "C18", "title": "Convergence is final and is eventually reached", "statement": "Once has_convergence_been_reached() is true it stays true; every reduction attempt either lowers some group's rate by more than eps or sets the flag, so with non-negative minimum rates and eps > 0 only finitely many attempts can happen before the flag is set.", "quantifier": "all metric histories and settings", "why_tests_cant": "liveness bound over unbounded histories", "anchors": ["neuro_shooting/custom_lr_scheduler.py:CustomReduceLROnPlateau._reduce_lr", "neuro_shooting/custom_lr_scheduler.py:CustomReduceLROnPlateau.has_convergence_been_reached"]}
{"id": "C19", "title": "Saving and restoring the scheduler at any epoch does not change the future", "statement": "Loading state_dict() into a freshly built scheduler on the same optimizer makes it behave, for every later sequence of metrics, exactly like the original.", "quantifier": "all crash points and all futures", "why_tests_cant": "crash points and continuations are unbounded", "anchors": ["neuro_shooting/custom_lr_scheduler.py:CustomReduceLROnPlateau.state_dict", "neuro_shooting/custom_lr_scheduler.py:CustomReduceLROnPlateau.load_state_dict"]}
{"id": "C20", "title": "Scheduler construction is validated", "statement": "Construction succeeds exactly when factor < 1, the minimum rates are a scalar or match the number of groups, and mode and threshold mode are known; it starts without convergence and with no bad epochs.", "quantifier": "all settings", "why_tests_cant": "unbounded settings", "anchors": ["neuro_shooting/custom_lr_scheduler.py:CustomReduceLROnPlateau.__init__"]}
{"id": "C21", "title": "Striding keeps every stride-th element and the advertised size", "statement": "Striding a dimension of size n by s keeps floor(n/s) elements: those at offset n mod s, n mod s + s, ..., the last always being at n-s; other dimensions and all other entries are untouched.", "quantifier": "all ranks, sizes, strides >= 1 and dimensions 2..5", "why_tests_cant": "size arithmetic over all n and s", "anchors": ["neuro_shooting/striding_block.py:ShootingStridingBlock._stride_tensor_single_dimension"]}
{"id": "C22", "title": "Striding a network state keeps its structure", "statement": "Striding dictionaries keeps all block and key names, strides states and costates in the same dimensions and the data in the correspondingly shifted ones; mismatching stride and dimension lists are rejected at construction.", "quantifier": "all dictionaries, stride and dimension lists", "why_tests_cant": "unbounded structures", "anchors": ["neuro_shooting/striding_block.py:ShootingStridingBlock.forward", "neuro_shooting/striding_block.py:ShootingStridingBlock.__init__"]}
{"id": "C23", "title": "Enlarging a tensor embeds the original and uses each new parameter exactly once", "statement": "Enlarging a tensor to a larger size returns that size, keeps every original entry at an offset of floor(difference/2) in each dimension and fills the remaining positions with each enlargement parameter exactly once.", "quantifier": "all ranks, sizes, and target sizes at least as large", "why_tests_cant": "index arithmetic in any number of dimensions", "anchors": ["neuro_shooting/shooting_blocks.py:ShootingBlockBase._enlarge_tensor"]}
{"id": "C24", "title": "The number of enlargement parameters is right and shrinking is rejected", "statement": "The number of created parameters is the volume difference; it is what the enlargement consumes; requesting a smaller size in any dimension raises, an equal size creates nothing and leaves the tensor unchanged.", "quantifier": "all sizes", "why_tests_cant": "unbounded sizes", "anchors": ["neuro_shooting/shooting_blocks.py:ShootingBlockBase._create_raw_enlargement_parameters", "neuro_shooting/shooting_blocks.py:ShootingBlockBase._create_generic_dict_of_dicts_enlargement_parameters", "neuro_shooting/shooting_blocks.py:ShootingBlockBase._enlarge_generic_dict_of_dicts"]}
{"id": "C25", "title": "A parameter sweep runs every combination exactly once", "statement": "Sweeping a non-empty dictionary of option lists yields all combinations, each exactly once, in lexicographic order of the options, each assigning a value to every option; the count is the product of the list lengths.", "quantifier": "all option dictionaries", "why_tests_cant": "combinatorial family", "anchors": ["neuro_shooting/command_line_execution_tools.py:recursively_sweep_parameters"]}
{"id": "C26", "title": "Two sweeps in one process do not influence each other", "statement": "The result of a parameter sweep depends only on its own argument, not on sweeps done before in the same process.", "quantifier": "all sequences of sweeps", "why_tests_cant": "depends on call history", "anchors": ["neuro_shooting/command_line_execution_tools.py:recursively_sweep_parameters"]}
{"id": "C27", "title": "Command lines contain every argument once and in order", "statement": "The argument list built for a run contains each option once, in dictionary order, flags without a value as a bare flag; joined configuration strings and list arguments contain the items in order separated by exactly one separator; escaping semicolons is invertible.", "quantifier": "all dictionaries, lists and strings", "why_tests_cant": "unbounded strings", "anchors": ["neuro_shooting/command_line_execution_tools.py:create_kv_string", "neuro_shooting/command_line_execution_tools.py:_make_arg_list", "neuro_shooting/command_line_execution_tools.py:add_to_config_string", "neuro_shooting/command_line_execution_tools.py:get_string_argument_from_list"]}
{"id": "C28", "title": "Merging sweep arguments into the template arguments", "statement": "In the merged arguments, swept values override template values, boolean options become flags present exactly when true, and unrelated template arguments are kept.", "quantifier": "all templates and sweeps", "why_tests_cant": "unbounded dictionaries", "anchors": ["neuro_shooting/experiment_utils.py:merge_args"]}
{"id": "C29", "title": "An interrupted experiment sweep can be resumed", "statement": "Running a sweep that is interrupted after any number of runs and starting it again with do-not-recompute executes exactly the missing runs; after completion all results exist and nothing that existed was recomputed.", "quantifier": "all sweeps, all crash points, all sets of already finished runs, distinct output names", "why_tests_cant": "every crash point of every sweep", "anchors": ["neuro_shooting/experiment_utils.py:sweep_parameters"]}
{"id": "C30", "title": "Each nonlinearity is returned with its derivative", "statement": "For every supported nonlinearity, the second function returned by get_nonlinearity is the derivative of the first at every real number where it exists (for relu every x except 0).", "quantifier": "all real inputs, all supported nonlinearities", "why_tests_cant": "all real numbers", "anchors": ["neuro_shooting/activation_functions_and_derivatives.py:get_nonlinearity"]}
{"id": "C31", "title": "Nonlinearity names", "statement": "get_nonlinearity accepts exactly the five supported names in any capitalisation, treats None as identity, and raises ValueError for every other string.", "quantifier": "all strings", "why_tests_cant": "all strings", "anchors": ["neuro_shooting/activation_functions_and_derivatives.py:get_nonlinearity"]}
{"id": "C32", "title": "The parameters computed from particles are the unique minimiser of the Lagrangian", "statement": "For models whose right-hand side is affine in each parameter, the parameters computed directly (gradient of the potential energy divided by the weight) are the unique minimiser of kinetic minus potential energy.", "quantifier": "all particle states and costates, all positive weights, all dimensions", "why_tests_cant": "all real vectors", "anchors": ["neuro_shooting/shooting_integrands.py:compute_parameters_directly", "neuro_shooting/shooting_integrands.py:divide_and_store_in_parameter_objects"]}
{"id": "C33", "title": "Iterative and direct parameter computation agree in the limit", "statement": "Each iteration of compute_parameters_iteratively multiplies the distance to the direct solution by |1-0.5 w|; with weights in (0,4) it converges to the direct solution, with weight 2 it is exact after one step, and with weights >= 4 it does not converge.", "quantifier": "all weights, starting points and iteration counts", "why_tests_cant": "all real numbers and all iteration counts", "anchors": ["neuro_shooting/shooting_integrands.py:compute_parameters_iteratively"]}
{"id": "C34", "title": "Analytic costate equations are the negative gradient of the Hamiltonian", "statement": "For every model with an analytic solution, the analytic costate right-hand side and the analytic parameters equal the ones obtained by differentiating the Lagrangian.", "quantifier": "all states, costates and parameters with particle dimension 1, all sizes", "why_tests_cant": "all real matrices of all sizes", "anchors": ["neuro_shooting/shooting_models.py:AutoShootingIntegrandModelSimple", "neuro_shooting/shooting_models.py:AutoShootingIntegrandModelUpDown", "neuro_shooting/shooting_models.py:AutoShootingIntegrandModelUpDownUniversal", "neuro_shooting/shooting_models.py:AutoShootingIntegrandModelGeneralUpDown", "neuro_shooting/shooting_models.py:AutoShootingIntegrandModelUpdownPeriodic"]}
{"id": "C35", "title": "The energy is conserved along exact shooting trajectories", "statement": "For every model class whose right-hand side is linear in its parameters, along every differentiable solution of the shooting equations (with a differentiable nonlinearity) the parameter norm energy is constant in time, so the penalty recorded at time zero is the penalty at all times. For models with an additional dampening that does not depend on the parameters the Lagrangian is constant instead and the norm need not be.", "quantifier": "all solutions on all time intervals", "why_tests_cant": "all continuous trajectories", "anchors": ["neuro_shooting/shooting_integrands.py:compute_gradients_autodiff", "neuro_shooting/shooting_models.py:AutoShootingIntegrandModelUpDown", "neuro_shooting/shooting_models.py:AutoShootingIntegrandModelSimple"]}
{"id": "C36", "title": "The norm penalty is a weighted squared norm", "statement": "The kinetic energy is half the weighted sum of squares of all parameters (missing weights count as one); it is non-negative for non-negative weights, zero only for zero parameters if weights are positive, and scales quadratically.", "quantifier": "all parameter dictionaries and weights", "why_tests_cant": "unbounded dictionaries of reals", "anchors": ["neuro_shooting/shooting_integrands.py:compute_kinetic_energy"]}
{"id": "C37", "title": "In RNN mode the parameters are computed once per integration", "statement": "Between two resets all right-hand-side evaluations use the parameters computed by the first one; after a reset they are recomputed from the new state. Without RNN mode every evaluation uses the parameters of its own state.", "quantifier": "all sequences of evaluations and resets", "why_tests_cant": "unbounded histories", "anchors": ["neuro_shooting/shooting_integrands.py:compute_gradients_autodiff", "neuro_shooting/shooting_integrands.py:compute_gradients_analytic", "neuro_shooting/shooting_integrands.py:reset"]}
{"id": "C38", "title": "Hooks see every evaluation, in order", "statement": "Each registered hook is called exactly once per evaluation in registration order with that evaluation's data; after removal it is not called any more, and removing one hook does not affect the others.", "quantifier": "all sequences of registrations, removals and evaluations", "why_tests_cant": "unbounded histories", "anchors": ["neuro_shooting/shooting_integrands.py:register_lagrangian_gradient_hook", "neuro_shooting/shooting_integrands.py:_custom_hook"]}
{"id": "C39", "title": "A block's parameters exist exactly after the first successful forward pass and stay the same afterwards", "statement": "Asking a shooting block for its parameters before a forward pass raises; enlargement parameters are created only by the first pass and reused by all later ones.", "quantifier": "all sequences of forward passes (with and without pass-through, failing or not) and parameter requests", "why_tests_cant": "unbounded call histories including failures", "anchors": ["neuro_shooting/shooting_blocks.py:ShootingBlockBase.parameters", "neuro_shooting/shooting_blocks.py:ShootingBlockBase.forward", "neuro_shooting/shooting_blocks.py:ShootingBlockBase._get_or_create_and_register_pass_through_enlargement_parameters"]}
{"id": "C40", "title": "Exactly one kind of integration time is in force", "statement": "After any sequence of set_integration_time and set_integration_time_vector calls, the block integrates with the last one set: either a single interval from 0 or the given vector, never a mix.", "quantifier": "all call sequences", "why_tests_cant": "unbounded call histories", "anchors": ["neuro_shooting/shooting_blocks.py:ShootingBlockBase.set_integration_time", "neuro_shooting/shooting_blocks.py:ShootingBlockBase.set_integration_time_vector"]}
{"id": "C41", "title": "Chained blocks need distinct names, and a chain loses nothing", "statement": "A block rejects pass-through states that already carry its own name. With concatenation the outputs carry exactly one block, the current one, so any chain in which each block has another name than the one before it works, sizes add up along the chain, and splitting the outputs gives back the integrated blocks. Without concatenation all earlier names are kept, so all names of a chain must differ.", "quantifier": "all chains of blocks, all names, shapes and integrators", "why_tests_cant": "unbounded chain lengths and shapes", "anchors": ["neuro_shooting/shooting_blocks.py:ShootingBlockBase.forward", "neuro_shooting/state_costate_and_data_dictionary_utils.py:_merge_state_costate_or_data_dict_with_generic_dict_of_dicts"]}
{"id": "C42", "title": "The residual network builds the requested channels and uses every block", "statement": "For every layer list, the channels entering layer i sum to layer_channels[i], block names are pairwise different, only the first block of a layer owns a state, and every block of the network contributes to its output.", "quantifier": "all lists of channels and blocks per layer", "why_tests_cant": "unbounded architectures", "anchors": ["neuro_shooting/res_net.py:BasicResNet"]}
{"id": "C43", "title": "Parameter initialisation options have a fixed precedence", "statement": "An initializer asked for both zeros and constants is rejected; otherwise a request for zeros or for a constant beats the random initialisation, and requesting custom initialisation from a base initializer raises; the created sizes are the requested ones.", "quantifier": "all option combinations and sizes", "why_tests_cant": "all combinations with all sizes", "anchors": ["neuro_shooting/parameter_initialization.py"]}
{"id": "C44", "title": "Escaping LaTeX special characters loses no information", "statement": "Escaping is character by character (escaping a concatenation is the concatenation of the escapes), different strings have different escapes, and strings without special characters are unchanged.", "quantifier": "all strings", "why_tests_cant": "all strings", "anchors": ["neuro_shooting/figure_utils.py:escape_latex_special_characters"]}
{"id": "C45", "title": "Long-range validation covers the whole trajectory", "statement": "Cutting a time vector into chunks of at least two points gives overlapping windows (each starts at the last point of the previous one) that cover every time point; no chunk is longer than the requested size. A size of zero or less means a single chunk, and with size one the loop ends only for vectors of at most one point.", "quantifier": "all time vectors and all chunk sizes", "why_tests_cant": "all lengths and chunk sizes, including those for which the loop does not end", "anchors": ["demos/neurips20/spiral.py:get_time_chunks"]}
{"id": "C46", "title": "Chunked long-range prediction equals direct prediction for autonomous systems", "statement": "For a block that is a flow of an autonomous system on a uniform time grid, compute_validation_data with chunking returns the same trajectory as one long prediction.", "quantifier": "all autonomous flows, grids and chunk sizes >= 2", "why_tests_cant": "all trajectories and chunkings", "anchors": ["demos/neurips20/spiral.py:compute_validation_data"]}
{"id": "C47", "title": "Parameter removal moves every parameter into the parameter dictionary", "statement": "After construction a layer's own parameter list is empty and its parameter dictionary holds exactly the non-None parameters with the common weight; setting an individual weight changes only that one and is rejected for unknown names.", "quantifier": "all layers, parameter sets and sequences of weight changes", "why_tests_cant": "unbounded histories", "anchors": ["neuro_shooting/overwrite_classes.py:RemoveParameters"]}
{"id": "C48", "title": "Parameter counts and freezing", "statement": "The overall number of parameters is the number of fixed plus the number of optimised ones; freezing and then unfreezing a set of parameters restores that all of them are optimised and leaves all others alone; an unknown name raises.", "quantifier": "all models and name lists", "why_tests_cant": "unbounded models", "anchors": ["neuro_shooting/utils.py:compute_number_of_parameters", "neuro_shooting/utils.py:freeze_parameters", "neuro_shooting/utils.py:unfreeze_parameters"]}
{"id": "C49", "title": "Zero padding has the right shape", "statement": "The zero data created for a block's own state has the data's shape with the concatenation dimension taken from the state, for every key; the data concatenation dimension is the state one shifted by the rank difference and a lower data rank is rejected.", "quantifier": "all states and data dictionaries", "why_tests_cant": "all ranks and sizes", "anchors": ["neuro_shooting/state_costate_and_data_dictionary_utils.py:_get_zero_data_dict_matching_state_dim", "neuro_shooting/state_costate_and_data_dictionary_utils.py:get_data_concatenation_dim"]}
{"id": "C50", "title": "Extracting a key from blocks", "statement": "Extracting a key from a single block returns that tensor (and raises if missing); from several blocks it returns for each block exactly its entry for the key, if any.", "quantifier": "all dictionaries and keys", "why_tests_cant": "unbounded dictionaries", "anchors": ["neuro_shooting/state_costate_and_data_dictionary_utils.py:extract_key_from_dict_of_dicts"]}
{"id": "C51", "title": "Predictions do not depend on the order of the particles", "statement": "Permuting the particles (rows of state and costate) permutes the evolution of state and costate and leaves the computed parameters, the norm penalty and all data predictions unchanged, at every step of a fixed-step integration.", "quantifier": "all permutations, states, costates, data, step sizes and step counts", "why_tests_cant": "all permutations of unboundedly many particles over unboundedly many steps", "anchors": ["neuro_shooting/shooting_models.py:AutoShootingIntegrandModelSimple", "neuro_shooting/shooting_models.py:AutoShootingIntegrandModelUpDown", "neuro_shooting/shooting_integrands.py:compute_gradients_analytic"]}
{"id": "C52", "title": "Samples in a batch do not influence each other", "statement": "The prediction for a data sample depends only on the particles and that sample: evolving a batch equals evolving each sample alone, at every step of a fixed-step integration, and data never influences state and costate.", "quantifier": "all batches, particles, step sizes and step counts", "why_tests_cant": "unbounded batches and steps", "anchors": ["neuro_shooting/shooting_models.py:AutoShootingIntegrandModelSimple", "neuro_shooting/shooting_models.py:AutoShootingIntegrandModelUpDown", "neuro_shooting/shooting_integrands.py:forward"]}
{"id": "C53", "title": "Experiment names distinguish experiments", "statement": "Different settings of the same options give different experiment names as long as the values contain no underscore.", "quantifier": "all option dictionaries", "why_tests_cant": "all strings", "anchors": ["neuro_shooting/experiment_utils.py:create_experiment_name"]}
{"id": "C54", "title": "Training windows stay inside the data", "statement": "Every training window drawn from a trajectory of data_size points with batch_time points lies inside the trajectory.", "quantifier": "all sizes and all drawn indices", "why_tests_cant": "all sizes and random draws", "anchors": ["demos/neurips20/spiral.py:get_batch", "demos/neurips20/spiral.py:create_uniform_distance_selection_array"]}
{"id": "C55", "title": "Complexity measures ignore repeated and backward time steps", "statement": "The complexity measures computed from a recorded evolution weight each recorded value with its (non-negative part of the) time step; adding a record at the same time changes nothing, a clock that is set back counts nothing, and for non-decreasing times they are the sums of the time steps times log2 of the mean of the two neighbouring records.", "quantifier": "all recorded evolutions", "why_tests_cant": "unbounded records in any time order", "anchors": ["neuro_shooting/validation_measures.py:compute_complexity_measures"]}
{"id": "C56", "title": "Recurrent discrete networks are explicit Euler steps", "statement": "The recurrent residual network with n layers equals n explicit Euler steps of size 1/n of its vector field, n layers followed by m layers of a replicated network equal n+m layers, and a layer with two states updates the second with the new value of the first, so that networks of such layers can be undone whatever their parameters and depth (unlike the residual network with one state).", "quantifier": "all layer counts and inputs", "why_tests_cant": "unbounded layer counts", "anchors": ["demos/neurips20/simple_discrete_neural_networks.py:ResNetRNN", "demos/neurips20/simple_discrete_neural_networks.py:UpDownDoubleResNetBlock"]}
{"id": "C57", "title": "The norm penalty is the kinetic energy at time zero", "statement": "After an integration the norm penalty is the kinetic energy of the parameters used by the last evaluation at time 0 since the last reset (the mean over all parameter sets in the particle-free modes); evaluations at other times do not change it and if none was at time 0 no penalty is available.", "quantifier": "all histories of evaluations, resets and hook operations", "why_tests_cant": "unbounded histories", "anchors": ["neuro_shooting/shooting_integrands.py:compute_gradients_analytic", "neuro_shooting/shooting_integrands.py:compute_gradients_autodiff", "neuro_shooting/shooting_integrands.py:get_current_norm_penalty"]}
{"id": "C58", "title": "Sizes of particles, derivatives and initial data fit together for every model class", "statement": "For every model class, the particles it creates and the initial data it makes from an input tensor have matching keys and sizes, and the derivatives computed from them have exactly their sizes, so that they can be evolved; which options make this true is characterised exactly, options of the wrong kind are refused with an error.", "quantifier": "all classes, sizes, inflation factors, filter sizes, start modes, learned values and inputs with any number of leading dimensions", "why_tests_cant": "all sizes and ranks of tensors", "anchors": ["neuro_shooting/shooting_models.py:create_initial_state_parameters", "neuro_shooting/shooting_models.py:rhs_advect_state", "neuro_shooting/shooting_models.py:get_initial_data_dict_from_data_tensor", "neuro_shooting/shooting_models.py:create_default_parameter_objects"]}
{"id": "C59", "title": "Convolutional models: kernels, costate equations and translations", "statement": "For the convolutional classes the computed kernels are the correlations of costate and input averaged over the particles, the costate equation obtained by automatic differentiation consists of the transposed convolutions (with group normalisation, followed by the derivative of the normalisation), and the convolutions commute with moving the images as long as nothing is pushed over the border.", "quantifier": "all image sizes, channels, particles, states, costates, weights and translations", "why_tests_cant": "all sizes and real-valued images", "anchors": ["neuro_shooting/shooting_models.py:AutoShootingIntegrandModelSimpleConv2D", "neuro_shooting/shooting_models.py:AutoShootingIntegrandModelConv2DBatch", "neuro_shooting/shooting_models.py:AutoShootingIntegrandModelUpDownConv2D", "neuro_shooting/overwrite_classes.py:SNN_Conv2d"]}
{"id": "C60", "title": "Only the distribution of the particles matters", "statement": "If every particle is present n times instead of once (copies of state and costate), the computed parameters, the norm penalty and all predictions stay the same, and every copy evolves like the single particle. With given parameters this holds for any kind of copying; with computed parameters unequal numbers of copies do change the result.", "quantifier": "all particle numbers, copy numbers, states, costates, data, nonzero weights, model classes and fixed-step methods", "why_tests_cant": "unbounded numbers of particles, copies and steps, real-valued states", "anchors": ["neuro_shooting/shooting_integrands.py:compute_potential_energy", "neuro_shooting/shooting_integrands.py:compute_parameters_directly", "neuro_shooting/shooting_models.py:rhs_advect_state"]}
{"id": "C61", "title": "Data that start at a particle stay with it", "statement": "A data sample that starts at the state of a particle is at the state of this particle at every stage of the integration, in every mode; two particles that start at the same state are never separated, even if their costates differ.", "quantifier": "all histories of stages and steps of explicit methods, all modes, states, costates and data", "why_tests_cant": "unbounded numbers of steps, real-valued states", "anchors": ["neuro_shooting/shooting_integrands.py:compute_gradients", "neuro_shooting/shooting_models.py:rhs_advect_state", "neuro_shooting/shooting_integrands.py:rhs_advect_data_dict_of_dicts"]}
{"id": "C62", "title": "Without costates nothing moves", "statement": "If all costates are zero, parameters and norm penalty are zero and neither particles nor data move, for the classes without dampening; a single particle whose costate is zero keeps costate zero for the whole integration.", "quantifier": "all states, data, weights, step sizes and numbers of steps", "why_tests_cant": "unbounded numbers of steps, real-valued states", "anchors": ["neuro_shooting/shooting_integrands.py:compute_parameters_directly", "neuro_shooting/shooting_integrands.py:rhs_advect_costate_reduced_dict_of_dicts", "neuro_shooting/shooting_models.py:rhs_advect_state"]}
{"id": "C63", "title": "Rotated inputs give rotated outputs", "statement": "Rotating (or reflecting) the features of particles, costates and data and renaming the hidden units before the integration rotates the result and changes neither the norm penalty nor anything else, for the classes that apply the nonlinearity only to the hidden state and for weights that are constant per parameter tensor; for the simple class renaming of features has this effect.", "quantifier": "all rotations and renamings, sizes, states, costates, data, nonlinearities and fixed-step methods", "why_tests_cant": "uncountably many rotations, unbounded numbers of steps", "anchors": ["neuro_shooting/shooting_models.py:AutoShootingIntegrandModelUpDown", "neuro_shooting/shooting_models.py:AutoShootingIntegrandModelUpDownUniversal", "neuro_shooting/shooting_models.py:AutoShootingIntegrandModelUpdownPeriodic", "neuro_shooting/shooting_models.py:AutoShootingIntegrandModelUpdownDampenedQ2", "neuro_shooting/shooting_models.py:AutoShootingIntegrandModelSimple"]}
{"id": "C64", "title": "Optimal transport: which parameters are computed", "statement": "In the optimal transport model the parameters are meant to minimise the Lagrangian in which the kinetic energy is the motion of the particles: then the derivatives of the particles are as close as possible to the costates divided by the number of particles and the weight. Such parameters exist and all of them move the particles alike; the computed parameters are ten gradient steps from a random start, whose distance to a minimiser changes by an exactly known factor per step in every direction; directions that do not influence the particles keep their random value. A weight has to be given.", "quantifier": "all particle numbers, sizes, states, costates, weights, random starts and numbers of iterations", "why_tests_cant": "real-valued inputs and random starts, unbounded sizes", "anchors": ["neuro_shooting/shooting_integrands.py:OptimalTransportNonLinearInParameter.compute_kinetic_energy", "neuro_shooting/shooting_integrands.py:OptimalTransportNonLinearInParameter.compute_parameters_iteratively", "neuro_shooting/shooting_integrands.py:OptimalTransportNonLinearInParameter.compute_lagrangian", "neuro_shooting/shooting_models.py:AutoShootingOptimalTransportSimple"]}
{"id": "C65", "title": "The recording hook records what happened", "statement": "With the recording hook registered, every evaluation appends to each record exactly one value: time, energy, each parameter, each state, costate, data variable and derivative, the squared norms of each parameter that is not a bias and their totals. Records of quantities that are always present stay in step, the recorded arrays keep the values of their time, the norms are the Frobenius, nuclear and spectral norms, the energy is the norm penalty, and the complexity measures are those of the evaluated sequence.", "quantifier": "all histories of evaluations and of in-place changes of tensors, all names, dictionaries and tensors", "why_tests_cant": "unbounded histories, arbitrary names and tensors, exceptions in the middle of a call", "anchors": ["neuro_shooting/shooting_hooks.py:parameter_evolution_hook", "neuro_shooting/shooting_hooks.py:compute_parameter_norms", "neuro_shooting/shooting_hooks.py:record_generic_dict_of_dicts", "neuro_shooting/validation_measures.py:compute_complexity_measures"]}
{"id": "C66", "title": "Vectorising does not influence the integration", "statement": "Integrators see one long vector, users see named tensors. For every integration method (fixed or adaptive steps, any number of stages), what a block returns is what the method computes on the named tensors directly: final values for an integration time, one row per time for a vector of times, the same exceptions, the same effect on the memory of the integrand.", "quantifier": "all methods that combine vectors element by element and decide by sums over all elements, all right-hand sides that return derivatives of the right shapes (with memory, random numbers and exceptions), all inputs and times", "why_tests_cant": "unbounded numbers of steps and stages, arbitrary names and shapes, all right-hand sides", "anchors": ["neuro_shooting/shooting_blocks.py:ShootingBlockBase.forward", "neuro_shooting/shooting_integrands.py:ShootingIntegrandBase.forward", "neuro_shooting/state_costate_and_data_dictionary_utils.py:assemble_tensor", "neuro_shooting/state_costate_and_data_dictionary_utils.py:disassemble_tensor", "neuro_shooting/generic_integrator.py:GenericIntegrator.integrate"]}
{"id": "C67", "title": "A forward pass computes the flow of the shooting equations", "statement": "What a shooting block of a vector class returns for an input tensor is, element by element, the result of applying its integration method coordinate by coordinate to the shooting equations of the class, started at its particles, its costates and the input: for automatic differentiation, for the hand-written formulas and in RNN mode (parameters of the first evaluation). Hooks and random starting values of parameters have no influence. Reordering the particles does not change the output. With a fixed-step method the output for a sample does not depend on the other samples; with a step size control it does.", "quantifier": "all vector classes and ways of computing, all programs of an integration method, all times, particles, costates and batches", "why_tests_cant": "real-valued inputs, all sizes, all integration methods; tests compare a few runs", "anchors": ["neuro_shooting/shooting_blocks.py:forward", "neuro_shooting/shooting_integrands.py:forward", "neuro_shooting/shooting_models.py:rhs_advect_state", "neuro_shooting/generic_integrator.py:integrate"]}
{"id": "C68", "title": "Forward passes converge to the exact solution of the shooting equations", "statement": "With smaller and smaller steps of the Euler, midpoint or Runge-Kutta methods the output of a shooting block comes as close as desired to the data of the exact solution of the shooting equations, with an error of at most a constant times the step size, at the final time and at all requested times, also at times between grid points. This holds for automatic differentiation, for the hand-written formulas of the classes that have exact ones, and in RNN mode. The norm penalty at the computed particles is the initial one up to a constant times the step size. Requested times that do not increase are rejected.", "quantifier": "all grids with steps below a bound, all step sizes, requested times, particle numbers, batches, particles, costates and data; all smooth nonlinearities of at most linear growth; all consistent one-step methods", "why_tests_cant": "limits: a statement about all small step sizes, real-valued inputs", "anchors": ["neuro_shooting/generic_integrator.py:GenericIntegrator.integrate", "neuro_shooting/shooting_blocks.py:ShootingBlockBase.forward", "neuro_shooting/shooting_integrands.py:forward", "neuro_shooting/shooting_models.py:rhs_advect_state"]}
{"id": "C69", "title": "The shooting equations have exactly one solution", "statement": "For the vector classes without damping, positive weights and every offered nonlinearity except relu, the shooting equations have a solution from every initial value over every interval of time, and only one: no blow-up, whatever the costates. The same holds in RNN mode. Consequently the exact network never maps two different samples to the same value: what agrees at some time has always agreed.", "quantifier": "all initial particles, costates, data, intervals of time, sizes, positive weights and nonlinearities with two continuous derivatives and at most linear growth", "why_tests_cant": "existence for all times and all real initial values cannot be sampled", "anchors": ["neuro_shooting/shooting_integrands.py:forward", "neuro_shooting/shooting_integrands.py:compute_parameters_directly", "neuro_shooting/shooting_models.py:rhs_advect_state", "neuro_shooting/activation_functions_and_derivatives.py:get_nonlinearity"]}
{"id": "C70", "title": "Time points left out of training stay unseen", "statement": "In the image-sequence experiments the network is trained with one evaluation time and n_skip further random times per sample left out. Whatever the shuffles, the times used for a sample are increasing, lie in the sequence and are T-1-n_skip many; the training loss is the weighted mean squared error over exactly those times, and no change of the images at the evaluation time (or at times left out) changes the loss or the statistics of batch normalisation. A training pass succeeds exactly if the arguments make sense. The network is in training mode while it is trained. The evaluation reports the error at the evaluation time.", "quantifier": "all data, networks, decoders, batches, numbers of times, shuffles, evaluation times, numbers of times left out, epochs", "why_tests_cant": "random shuffles: a test sees a few of factorially many; independence from the unseen data quantifies over all data", "anchors": ["demos/neurips20/autoencoder.py:ShootingAEMasked.generate_selection_indices", "demos/neurips20/autoencoder.py:ShootingAEMasked.forward", "demos/neurips20/rot.py:evaluate", "demos/neurips20/balls.py:evaluate"]}
{"id": "C71", "title": "Saved results are those of the best epoch, after any history and any crash", "statement": "After a run the saved model and statistics are those of the epoch with the smallest validation error (the last such epoch). Wherever the process dies, the best model so far and its statistics can still be read. Results of an earlier run are never overwritten.", "quantifier": "all histories of validation errors (NaN included), all crash points, all sequences of runs", "why_tests_cant": "crash points and histories without bound", "anchors": ["demos/neurips20/balls.py:__main__"]}
{"id": "C72", "title": "The concentric-spheres experiment and the image loaders", "statement": "Random points have the requested radius, are uniformly distributed in their region and carry the right label; a gap between the regions makes them separable by the radius. Balanced samples hold equally many points of both labels. The reported test loss and accuracy are those of all test samples and do not depend on the batch size, the reported training loss is the mean over the training samples. Training and test images have the same size. A seed fixes the whole run.", "quantifier": "all dimensions, radii, random draws, data sets, batch sizes, partitions into batches, seeds", "why_tests_cant": "real-valued and random inputs; all partitions into batches", "anchors": ["demos/neurips20/utils.py:random_point_in_sphere", "demos/neurips20/utils.py:ConcentricSphere", "demos/neurips20/cc.py:train", "demos/neurips20/cc.py:test", "neuro_shooting/data_loaders.py"]}
{"id": "C73", "title": "Parameters from a fixed-point iteration give nearly the right equations of motion", "statement": "In the classes that find their parameters by gradient steps the parameters stay put exactly at the critical points of the Lagrangian, and a limit of the iteration is one. For right-hand sides affine in the parameters and weights below 4 the derivatives of state and costate tend to the exact ones when the number of steps grows; with a common weight c the error of the state shrinks by 1-c/2 per step, that of the costate by its square. What was drawn at random for the start of the iteration influences an evaluation by exactly these factors. The hand-written equations of the fixed-point script agree with automatic differentiation for the costate, for the state they are 5/4 of it.", "quantifier": "all right-hand sides affine in the parameters, states, costates, weights, starting parameters and numbers of steps", "why_tests_cant": "limits and exact rates for all real inputs; random starts", "anchors": ["neuro_shooting/shooting_integrands.py:NonlinearInParameterAutogradShootingIntegrand.compute_parameters_iteratively", "neuro_shooting/shooting_integrands.py:compute_reduced_lagrangian", "tests/raw_fixed_point_check.py:rhs_shooting_autograd"]}
{"id": "C74", "title": "The hand-written programs agree with the library", "statement": "The stand-alone UpDown program computes the same parameters, derivatives and energies as the library; its Lagrangian is twice its energy, its derivatives are Hamilton's equations of its Hamiltonian, its finite differences tend to them. Its time stepping makes as many midpoint steps as fit into the unit interval, reaches the end exactly if the step divides it, fails for step zero, and with a smooth activation comes as close to the exact solution as desired. The manual equations of the comparison script are those of the library divided by the number of features.", "quantifier": "all states, costates, sizes, activations with a derivative, step sizes", "why_tests_cant": "real-valued inputs, limits", "anchors": ["tests/test_standalone_shooting_updown.py:compute_rhs", "tests/test_standalone_shooting_updown.py:advect", "tests/test_standalone_shooting_updown.py:finite_differences", "tests/autograd_versus_manualgrad.py", "neuro_shooting/shooting_models.py:AutoShootingIntegrandModelUpDown"]}
{"id": "C75", "title": "Integration time and size of the costates are interchangeable; networks can be run backwards", "statement": "For the classes without damping, multiplying the initial costates by c>0 has exactly the effect of multiplying all integration times by c: the parameters become c times, the norm penalty c^2 times as large, and a forward pass with a fixed-step method returns the same output when the step size is multiplied by c as well, for all activations, also in RNN mode. With smooth activations the exact network is one-to-one from all data onto all data, and its inverse is again a network of the same class: the one that starts from the final particles with the opposite costates. With damping this is false.", "quantifier": "all factors, particles, costates, batches, times, weights, activations, Runge-Kutta methods and step sizes", "why_tests_cant": "exact statements about all real inputs and about solutions of differential equations", "anchors": ["neuro_shooting/shooting_integrands.py:compute_parameters_directly", "neuro_shooting/shooting_integrands.py:compute_gradients", "neuro_shooting/shooting_blocks.py:ShootingBlockBase.forward", "neuro_shooting/shooting_models.py"]}
{"id": "C76", "title": "The functional mapping experiment trains and records what its options say", "statement": "With a shooting network the program performs in each of the niters+1 epochs one optimizer step per full batch, evaluates every test_freq epochs and in the last, adapts the learning rate every test_freq epochs to the evaluation loss, and ends with exactly the parameters this procedure gives. Frozen particles do not move until they are unfrozen, clamped particles stay in the range, options for figures do not influence what is learned, the results file describes the final network on the test data. Training data lie in the range and carry the right function values. The same holds for the networks for comparison and for particle-free networks; results are only saved for networks that were trained; figures show the whole function.", "quantifier": "all options, numbers of epochs, batches, losses, gradients, optimizers and schedulers, parameters, data", "why_tests_cant": "The schedule has to hold for all combinations of frequencies, numbers of epochs and batch sizes; tests run one short training.", "anchors": ["demos/neurips20/simple_functional_mapping_example.py"]}
{"id": "C77", "title": "The spiral experiment trains and records what its options say", "statement": "The program performs in each of the niters+1 epochs one optimizer step per batch, evaluates and adapts the learning rate as the options say, and ends with exactly the parameters this procedure gives; options for figures do not influence what is learned; the results file describes the final network on the long and short range data. This holds for all batch sizes and numbers of epochs.", "quantifier": "all options, numbers of epochs, batches, losses, gradients, optimizers and schedulers, parameters, data", "why_tests_cant": "Whether a display option influences learning can only be decided over all pairs of runs; tests run one.", "anchors": ["demos/neurips20/spiral.py"]}
{"id": "C78", "title": "A started experiment runs the requested command", "statement": "Running a script with a dictionary of options starts exactly one program: the given interpreter with the script and, in order, every option followed by its value (flags without), nothing split, joined or lost, on the given device, with its output and error messages in the given log file. Key/value strings and escaped configuration strings arrive as one argument with plain semicolons. Each job of a sweep is started with its own seed, output directory and log file.", "quantifier": "all scripts, interpreter paths, option dictionaries, devices, log files, sweep settings and texts", "why_tests_cant": "The command passes through two shells; which texts survive both is a question about all strings, a test tries some.", "anchors": ["neuro_shooting/command_line_execution_tools.py: run_command_with_args, get_bash_precommand, execute_python_script_via_bash, create_kv_string", "neuro_shooting/experiment_utils.py: sweep_parameters"]}
{"id": "C79", "title": "Networks of several blocks compute the composition of their equations", "statement": "A block that gets the outputs of another block integrates, up to its integration time, the shooting equations of its class for the passed states and costates beside its own and the passed data beside zeros, and nothing else: names of blocks and tensors, their order in dictionaries and the layout of the integrated vector do not matter. A network with any number of such blocks computes the composition; with fixed-step methods its output for a sample depends on this sample only; permuting the particles of all blocks alike does not change it. Without automatic differentiation a later block is rejected with a ValueError.", "quantifier": "all numbers of blocks, names, sizes, particles, costates, batches, activations, integration methods and times; all classes whose state consists of vectors or images of the sizes of the block, with and without RNN mode", "why_tests_cant": "The statement is about all inputs, all names and networks of every length; a test runs one network.", "anchors": ["neuro_shooting/shooting_blocks.py:ShootingBlockBase.forward", "neuro_shooting/shooting_integrands.py:rhs_advect_state_dict_of_dicts", "neuro_shooting/shooting_integrands.py:compute_gradients", "neuro_shooting/state_costate_and_data_dictionary_utils.py: _concatenate_named_dict_of_dicts_keeping_structure"]}
{"id": "C80", "title": "Residual networks compute the composition of their equations, strides and enlargements", "statement": "The head of a residual network gets the output of its last block, and this is the result of: integrating the equations of the first block from its own particles and the output of the stem; then, in the order of the layers, leaving out pixels of particles and data as the stride says, putting the passed particles in the middle of the larger particles of the next block with learned values around them, adding its own particles, and integrating its equations; blocks without own particles integrate what is passed. If an integration fails its exception is raised. The values around the particles are created in the first pass and stay in later ones, so that the same input gives the same output. With fixed-step methods the row of a sample depends on this sample only; permuting the particles of all blocks (and the values around them) alike changes nothing.", "quantifier": "all numbers of layers and blocks, strides, image sizes, particle sizes, channels, names, particles, costates, random numbers, batches, activations, integration methods and times, with and without RNN mode", "why_tests_cant": "The statement is about all inputs, sizes and random numbers; tests run single networks and compare shapes.", "anchors": ["neuro_shooting/res_net.py:BasicResNet", "neuro_shooting/shooting_blocks.py:ShootingBlockBase.forward", "neuro_shooting/shooting_blocks.py:ShootingBlockBase._get_or_create_and_register_pass_through_enlargement_parameters", "neuro_shooting/striding_block.py:ShootingStridingBlock"]}
{"id": "C81", "title": "Shooting trajectories are critical points of the parameter cost, and short ones are optimal", "statement": "Compare the parameters that shooting computes along a trajectory with other parameters that vary continuously with time and start at the same state, where the cost is the integral of half the weighted sum of squares. If the others stay within a distance e, the cost changes by the average over particles of the pairing of the final costates with the displacement of the final states, up to a multiple of the square of e; so among parameters that lead to the same end shooting is critical. With positive weights, every sufficiently short piece of a shooting trajectory costs strictly less than all other parameters that lead from its start to its end. The cost is the length of the interval times the norm penalty at the start, which is what the training loss adds.", "quantifier": "all vector fields that are affine in the parameters, twice continuously differentiable and of at most linear growth in the state; all weights, numbers of particles, trajectories and competing parameters", "why_tests_cant": "The competitors form an infinite-dimensional set and the bound has to be uniform in them; tests see finitely many.", "anchors": ["neuro_shooting/shooting_models.py:AutoShootingIntegrandModelUpDown", "neuro_shooting/shooting_integrands.py:LinearInParameterAutogradShootingIntegrand.compute_parameters_directly", "neuro_shooting/shooting_integrands.py:ShootingIntegrandBase.compute_lagrangian", "neuro_shooting/shooting_integrands.py:ShootingIntegrandBase.compute_gradients_autodiff"]}
{"id": "C82", "title": "Optimal time-dependent parameters are shooting parameters; one particle per sample represents every optimum", "statement": "Let parameters that vary continuously with time have the smallest sum of their cost and a differentiable loss of the final states of finitely many samples. Then they are the parameters of a shooting trajectory whose particles are the samples, with final costate minus the number of particles times the gradient of the loss; conversely such a trajectory is critical for this sum. Hence there are initial costates with which the library, given one particle at every sample, computes exactly the optimal parameters at all times and moves the samples, and any further data, as the optimum does. The states driven by continuous parameters exist and are unique.", "quantifier": "all vector fields that are affine in the parameters, twice continuously differentiable and of at most linear growth in the state; all nonzero weights, numbers of samples, losses and time intervals", "why_tests_cant": "The statement is about a minimum over an infinite-dimensional set of parameters and about exact solutions.", "anchors": ["neuro_shooting/shooting_integrands.py:LinearInParameterAutogradShootingIntegrand.compute_parameters_directly", "neuro_shooting/shooting_integrands.py:ShootingIntegrandBase.compute_gradients_autodiff", "neuro_shooting/shooting_blocks.py:ShootingBlockBase.forward"]}
{"id": "C83", "title": "Options asked for reach the program, and accepted options are usable", "statement": "A program started with the arguments of a dictionary of options finds for each of its options the requested value, converted to its type, or the default; it starts exactly if it understands everything, and otherwise ends with a usage error. Whatever the command line, a program that starts has for each option a value of its type and one of its choices, and for every accepted shooting model, nonlinearity and way to find initial conditions there is an implementation. Every job of an experiment script starts its program with the seed, directory, swept values and template that it asks for, for every model the script accepts, and a script starts the combinations it asks for.", "quantifier": "all dictionaries of options, command lines, seeds, directories, devices, templates, swept options and combinations; all parsers of the demo programs and of the experiment scripts", "why_tests_cant": "Command lines are arbitrary texts, and the tables of options of scripts and programs have to fit for every choice; a test starts a few runs and the exit status of the runs is not looked at.", "anchors": ["neuro_shooting/experiment_utils.py: setup_cmdline_parsing, sweep_parameters", "neuro_shooting/command_line_execution_tools.py: _make_arg_list", "demos/neurips20/spiral.py: setup_cmdline_parsing, setup_shooting_block", "demos/neurips20/simple_functional_mapping_example.py: setup_cmdline_parsing", "demos/neurips20/cc.py", "demos/neurips20/rot.py", "demos/neurips20/balls.py", "demos/neurips20/run_experiments_spiral.py", "demos/neurips20/run_experiments_spiral_rnn.py", "demos/neurips20/run_long_iteration_experiments_simple_functional_mapping.py", "demos/neurips20/run_long_iteration_experiments_simple_functional_mapping_rnn.py"]}
{"id": "C84", "title": "Integration with the adjoint method returns the derivative of the loss", "statement": "With use_adjoint_integration the gradient that reaches the initial values of a block is the derivative of the loss of its outputs, for every differentiable loss and all output times; the backward pass always has a result. This holds for everything the outputs depend on: particles, costates, samples and parameters that are optimised directly.", "quantifier": "all model classes that are linear in the parameters, twice continuously differentiable and of at most linear growth, all activations of this kind, weights, numbers of particles and samples, inputs, output times and losses; with parameters from the particles, in RNN mode, and with parameters optimised directly; exact solutions", "why_tests_cant": "A gradient is a statement about all small changes of the inputs, and the tests do not use adjoint integration at all.", "anchors": ["neuro_shooting/generic_integrator.py:GenericIntegrator._integrate_odeint", "neuro_shooting/shooting_integrands.py:forward", "neuro_shooting/shooting_integrands.py:compute_gradients_autodiff", "neuro_shooting/shooting_integrands.py:set_externally_managed_rnn_parameter_func", "neuro_shooting/shooting_blocks.py:ShootingBlockBase.register_particle_free_parameters", "demos/neurips20/spiral.py: setup_integrator"]}
{"id": "C85", "title": "Gradients through the solver are the derivative of the loss up to the step size", "statement": "Without use_adjoint_integration the loss of the outputs of a fixed-step solver (euler, midpoint, rk4) is a differentiable function of everything the outputs depend on - particles, costates, samples and, where they are optimised directly, parameters - and its derivative differs from the derivative of the loss of the exact solutions by at most a constant times the step size. So with parameters from the particles both ways to compute gradients agree in the limit; in RNN mode and for parameters that are optimised directly they do not: only the derivative through the solver is right.", "quantifier": "all model classes that are linear in the parameters, three times continuously differentiable and of at most linear growth, all consistent Runge-Kutta methods, grids, output times, weights, numbers of particles and samples, inputs and twice continuously differentiable losses (once for convergence without a rate); exact arithmetic", "why_tests_cant": "Convergence is a statement about all small step sizes; a test compares two numbers for one step size and cannot tell an error of the method from a wrong gradient.", "anchors": ["neuro_shooting/generic_integrator.py:GenericIntegrator._integrate_odeint", "neuro_shooting/shooting_blocks.py:ShootingBlockBase.forward", "neuro_shooting/shooting_integrands.py:forward", "neuro_shooting/shooting_integrands.py:compute_gradients_autodiff"]}
{"id": "C86", "title": "Figures of a run show the recorded quantities and leave everything else as it was", "statement": "plot_temporal_data draws, for the energy and for every recorded quantity except time, energy and time derivatives, each entry of that quantity over the recorded times; basic_visualize draws for every trajectory the given and the predicted path and for every particle its place and momentum. With --save_figures these are the files png, pdf and pgf of the documented names, with --viz they are shown, in recording order; no other file changes, different iterations have different files, whose alphabetical order is the order of the iterations, and matplotlib has its earlier backend and settings afterwards.", "quantifier": "all recordings, blocks, names, numbers and shapes of quantities, trajectories and particles, options, iterations, directories and earlier contents of the file system, and errors while drawing or saving", "why_tests_cant": "A test compares a few images; which quantities are left out for other names, which files are overwritten and whether settings survive an exception depend on names, histories and failures a test does not enumerate.", "anchors": ["neuro_shooting/vector_visualization.py:plot_temporal_data", "neuro_shooting/vector_visualization.py:basic_visualize", "neuro_shooting/vector_visualization.py:plot_trajectories", "neuro_shooting/vector_visualization.py:plot_higher_order_state", "neuro_shooting/figure_utils.py:save_all_formats", "neuro_shooting/figure_settings.py:setup_pgf_plotting", "neuro_shooting/figure_settings.py:reset_pgf_plotting"]}
{"id": "C87", "title": "An animation shows the recorded times, each once and in their order", "statement": "visualize_time_evolution with a directory leaves one image per recorded time, with the time, the validation paths, the computed paths up to that time and particles with momenta at that time, and an animation of exactly these images in the order of time; other files are unchanged. Without a directory the first images are shown in that order. If a needed quantity was not recorded there is an error and no image.", "quantifier": "all recordings, numbers of times, prefixes, directories, earlier contents of the file system and block names", "why_tests_cant": "The order of the images is the alphabetical order of file names found in a directory; it depends on the number of times and on what earlier runs left there.", "anchors": ["neuro_shooting/vector_visualization.py:visualize_time_evolution", "demos/neurips20/spiral.py"]}
{"id": "C88", "title": "Tables and pictures of parameters belong to the layers they are labelled with", "statement": "collect_and_sort_parameter_values_across_layers makes one table per parameter of a layer, whose row i is this parameter in layer i; in the pictures of the double network column i shows the weights of layer i, all of them and in ascending order, and its bias. Networks whose layers do not have the same parameters, or without parameters, are rejected.", "quantifier": "all numbers of layers and hidden units, all names of layers and parameters, all values", "why_tests_cant": "Which row a value is written to depends on where names change; a test with one network cannot tell rows shifted for another number of parameters or layers.", "anchors": ["demos/neurips20/simple_functional_mapping_example.py:collect_and_sort_parameter_values_across_layers", "demos/neurips20/simple_discrete_neural_networks.py:DoubleResNetUpDown"]}
{"id": "C89", "title": "Data sets and loaders hand out what they promise", "statement": "In spiral.py every sample of every batch is a window inside the trajectory that starts at the initial value handed out with it and comes with matching times; training windows are new random ones at each access, evaluation and test data are drawn once from the first random numbers after the seed and are the same at every access, whatever the batch size and the network; with long range validation the test data are the whole trajectory. As the equation does not depend on time, the points of each window are the values of a solution of the equation of the data started at the initial value. In simple_functional_mapping_example.py an epoch uses no sample twice and leaves out only those that do not fill a batch.", "quantifier": "all trajectories, window lengths, batch sizes, numbers of samples, random numbers, orders of shuffling and numbers of accesses", "why_tests_cant": "Random draws and shuffles: a run shows one of them; shared samples or windows past the end appear for some draws only.", "anchors": ["demos/neurips20/spiral.py:FunctionDataset", "demos/neurips20/spiral.py:get_function_data_loaders", "demos/neurips20/spiral.py:DiffEqRHS", "demos/neurips20/spiral.py:generate_data", "demos/neurips20/simple_functional_mapping_example.py:FunctionDataset", "demos/neurips20/simple_functional_mapping_example.py:get_function_data_loaders"]}
{"id": "C90", "title": "Long range validation in chunks: what is predicted, and when it is the long prediction", "statement": "Validation over a long range in chunks gives, for every shooting block with a fixed-step method on the given times, the predictions of the block for one short piece of time after the other: each piece starts with the last value predicted before, the particles of the block and all variables that are not returned start anew with each piece.  Without chunks it is one prediction for all times.  The two agree in RNN mode when a sample consists of nothing but what is returned (simple class), for all increasing times, and with restarted times on uniform grids; they differ when parameters come from moving particles, and in RNN mode when a second variable is forgotten (up-down classes).", "quantifier": "all blocks, particles, batches, increasing time vectors, explicit Runge-Kutta methods, chunk sizes of at least two", "why_tests_cant": "The result looks like a trajectory in every run; that it is that of the model only in some modes, and for every size of the chunks, is not visible in examples.", "anchors": ["demos/neurips20/spiral.py:compute_validation_data", "demos/neurips20/spiral.py:get_time_chunks", "neuro_shooting/shooting_blocks.py:ShootingBlockBase", "neuro_shooting/shooting_models.py:AutoShootingIntegrandModelSimple", "neuro_shooting/shooting_models.py:AutoShootingIntegrandModelUpDown"]}
{"id": "C91", "title": "Predicting several times at once gives what predicting them one by one gives", "statement": "With a step size, the values a shooting block predicts for a list of times are those of full steps from the first time on with straight lines between the ends of the steps, and the last step as short as necessary.  So the value at a time does not depend on which other times are asked for, as long as the step containing it is completed; all times at once and one time after the other give the same for times that are multiples of the step size (and with explicit Euler for all times).  Without a step size, or for times inside the last step, they differ, but by no more than a constant times the step size.  Times that do not increase are refused when asked for together.", "quantifier": "all blocks whose parameters come from particles (at every time, or once in RNN mode), particles, batches, explicit Runge-Kutta methods, step sizes and lists of times", "why_tests_cant": "The test script of the repository prints the differences for one model, one method and sixteen times; which lists of times are affected by the others depends on the position of every time relative to the grid.", "anchors": ["tests/integration_time_test.py", "neuro_shooting/shooting_blocks.py:ShootingBlockBase.set_integration_time", "neuro_shooting/shooting_blocks.py:ShootingBlockBase.set_integration_time_vector", "neuro_shooting/shooting_blocks.py:ShootingBlockBase.forward", "neuro_shooting/generic_integrator.py:GenericIntegrator"]}
{"id": "C92", "title": "A residual network has exactly the parameters its sizes call for, whatever was done with it", "statement": "After a pass, named_parameters of a residual network lists the convolution, the batch norm, and for the first block of every layer one entry per state and costate with (particles x new channels x height x width) values, and, if the particles of the layer before (thinned by the stride) are smaller, one entry per state and costate for the margin; then the linear layer.  Blocks that only pass on have none.  The list (names, order, sizes) does not depend on the number of passes and optimiser steps, on the sizes of batches and images, or on the numbers of blocks; before the first pass the margins are missing.  All names are different.  The comparison script of the repository accepts a list exactly if all its entries are among the targets.", "quantifier": "all numbers of layers, channels, blocks, particles and classes, particle sizes, strides, and histories of passes and optimiser steps", "why_tests_cant": "The test script prints the comparison for one network with two layers after one pass; parameters are created during passes, so an optimiser built after one pass covers all parameters only if no later pass creates more, in any history.", "anchors": ["neuro_shooting/res_net.py:BasicResNet", "tests/striding_and_upsampling.py", "neuro_shooting/shooting_blocks.py:ShootingBlockBase"]}
{"id": "C93", "title": "Hand-written formulas and automatic differentiation give the same gradients, and the check of the repository measures exactly that", "statement": "For the five models checked by the gradient test script, with any twice continuously differentiable nonlinearity, any nonzero parameter weights, any particles, costates, batch and fixed-grid integration method that starts at time 0, the loss (mean square of the prediction plus norm penalty) is a differentiable function of particles and costates and is the same function with hand-written formulas and with automatic differentiation; the norm penalty after a pass is the kinetic energy at the initial particles, whatever happened before.  The gradients recorded by the script are the derivatives of the loss of that pass only.  A tensor passes exactly if its gradient is not identically zero, both gradients vanish at the same elements and all other ratios are within the tolerance of one, so that the difference is at most the tolerance times the hand-written gradient; all tests pass unless some gradient is identically zero, and then the script ends with a RuntimeError instead of a report.", "quantifier": "all particles, costates, inputs, batch sizes, step sizes, methods, weights, tolerances, earlier gradients and memory of the integrand", "why_tests_cant": "The script compares at one random point, for one nonlinearity, one method and one step size, up to a tolerance; that the two ways agree everywhere, and that a pass of the script means what it says for all gradients, are statements about all inputs.", "anchors": ["tests/autograd_gradient_test.py", "neuro_shooting/shooting_integrands.py:ShootingIntegrandBase.get_norm_penalty", "neuro_shooting/shooting_integrands.py:ShootingIntegrandBase.compute_gradients", "neuro_shooting/shooting_models.py"]}
{"id": "C94", "title": "The integration methods have the order of accuracy they are known for, and linear interpolation between grid points limits it", "statement": "For every method of order p (the conditions of Butcher up to order four; Euler has order 1, the midpoint rule 2, the classical Runge-Kutta method and the 3/8 rule 4), every supported class with a nonlinearity other than relu, every particles, costates and batch, a forward pass with step size h returns the data of the exact solution up to a constant times h^p at requested times that are grid points (in particular the end of an integration time), and up to a constant times h^p + h^2 at others, where the library interpolates linearly; the norm penalty drifts by no more. The constant does not depend on the step size or on the requested times. Both bounds are attained: for suitable equations the error is exactly a constant times h^p at grid points, and exactly h^2/4 in the middle of a step, however high the order.", "quantifier": "all step sizes below a bound, grids, lists of requested times, initial particles, costates and batches, classes, nonlinearities, methods given by their coefficients", "why_tests_cant": "A test measures errors for a few step sizes at one problem; an order is a statement about all small step sizes with one constant, and a wrong coefficient can keep the method convergent while the order drops.", "anchors": ["neuro_shooting/generic_integrator.py:GenericIntegrator.integrate", "neuro_shooting/generic_integrator.py:GenericIntegrator.__init__", "neuro_shooting/shooting_blocks.py:ShootingBlockBase.forward", "neuro_shooting/shooting_models.py"]}
{"id": "C95", "title": "What an integrand computes again after a pass is what it computed during the pass", "statement": "Vectors are read with the assembly plans of the last pass, whatever happened before, and a vector assembled with stored plans is read back unchanged. After a successful pass, and after any further evaluations, integrating the same vector again gives the same vectors, also chunk by chunk as checkpoints do, with recomputed parameters and in RNN mode (where all later evaluations use the parameters of the first evaluation of the pass); other passes before the repetition do not change it.", "quantifier": "all integrand classes without external parameters whose hooks do not raise, all integration methods (fixed and adaptive), histories of passes (successful or not), evaluations and calls that store plans, all vectors and plans", "why_tests_cant": "The adjoint method and checkpointing evaluate the integrand at the time of the backward pass, with whatever plans and cached parameters it then has; tests run one forward and one backward pass in immediate succession.", "anchors": ["neuro_shooting/shooting_integrands.py:ShootingIntegrandBase.disassemble_tensor", "neuro_shooting/shooting_integrands.py:ShootingIntegrandBase.set_auto_assembly_plans", "neuro_shooting/shooting_integrands.py:ShootingIntegrandBase.forward", "neuro_shooting/generic_integrator.py:GenericIntegrator._integrate_checkpointed", "neuro_shooting/shooting_blocks.py:ShootingBlockBase.forward"]}
{"id": "C96", "title": "Rounding errors change the result of a forward pass by no more than a constant times their size", "statement": "If every value of the right-hand side is computed with an error of at most delta and every other vector with an error of at most rho, the outputs of a forward pass differ from those of exact arithmetic by at most a constant times delta + rho * (number of grid points), and from the exact solution by at most a constant times h^p more. The constant does not depend on the step size, the errors or the requested times. Errors of single steps can add up, so the factor (number of grid points) cannot be dropped.", "quantifier": "all smooth equations (all smooth classes and nonlinearities), all particles, costates and batches, all grids and step sizes below a bound, all requested times, all errors below a bound, different for every operation", "why_tests_cant": "A test compares two runs in the same arithmetic; that no sequence of rounding errors is amplified beyond a fixed factor, whatever the step size, is a statement about all of them.", "anchors": ["neuro_shooting/shooting_blocks.py:ShootingBlockBase.forward", "neuro_shooting/generic_integrator.py:GenericIntegrator", "neuro_shooting/shooting_integrands.py:ShootingIntegrandBase.forward"]}
{"id": "C97", "title": "A recording contains each evaluation of its own pass once, and nothing else", "statement": "Registering a hook, setting a new dictionary as custom data, making a pass and removing the hook (as the demos do) fills the dictionary with each evaluation of that pass exactly once and in order; training, testing and other recordings, before and after, leave no trace in it. The recording of the concentric-circles demo has six lists with one value per evaluation each, and the values stay those of the time of the evaluation; it works for every model the program accepts.", "quantifier": "all histories of recordings and other passes, successful or not, all hooks, classes, passes and in-place changes of tensors", "why_tests_cant": "A test makes one recording with one model; what a dictionary contains after any sequence of recordings, trainings and exceptions is a statement about all histories.", "anchors": ["demos/neurips20/cc.py:hook_in", "demos/neurips20/cc.py:linear_transform_hook", "demos/neurips20/spiral.py", "demos/neurips20/simple_functional_mapping_example.py", "neuro_shooting/shooting_integrands.py:ShootingIntegrandBase.set_custom_hook_data"]}
{"id": "C98", "title": "The tensorboard hook logs the first layer at the start of each integration in every tenth epoch", "statement": "With the tensorboard hook registered and the epoch given as custom data, each evaluation at time 0 in an epoch divisible by ten logs two entries of the bias and the weight of the first layer under that epoch, other evaluations log nothing, and evaluations are not disturbed.", "quantifier": "all sequences of evaluations, epochs, custom data, parameter objects and shapes of the bias", "why_tests_cant": "A test runs the hook with one shape and one epoch; that every evaluation of a training is logged or left alone, whatever the class and the way the equations are computed, is a statement about all of them.", "anchors": ["neuro_shooting/tensorboard_shooting_hooks.py:linear_transform_hook"]}
{"id": "C99", "title": "Mirrored or turned images give mirrored or turned predictions", "statement": "For the convolutional classes, mirroring all images (particles, costates and data) up-down, left-right or, for square images, at the diagonal (so also turning them by 90 degrees), and renaming the channels, moves the whole evolution along at every stage and step and does not change the norm penalty, provided that the parameter weights are the same for all entries of a kernel. Cyclic translations have no such property because of the zero padding.", "quantifier": "all image sizes, channels, particles, states, costates, data, motions, positive weights per tensor, differentiable nonlinearities and explicit fixed-step methods", "why_tests_cant": "A test compares one image with its mirror image; that no network built of these classes prefers a direction is a statement about all images, parameters and step counts.", "anchors": ["neuro_shooting/shooting_models.py:AutoShootingIntegrandModelUpDownConv2D", "neuro_shooting/shooting_models.py:AutoShootingIntegrandModelConv2DBatch", "neuro_shooting/shooting_models.py:AutoShootingIntegrandModelSimpleConv2D", "neuro_shooting/overwrite_classes.py:SNN_Conv2d"]}
{"id": "C100", "title": "The number of particles limits which layers a block can have", "statement": "Every weight matrix of a block has a rank of at most the number of particles times the particle dimension (for convolutions: times the number of pixels), whatever the particles and costates are, so also at every time of the evolution. In the simple and up-down classes all samples move at every moment in directions spanned by the costates. With a bias and any accepted nonlinearity, every parameter value of the simple class can be produced exactly if there are more particles (times particle dimension) than features; in the up-down classes the smaller of the two numbers of features counts; in the universal and periodic classes more than both together are enough, and as many as those of the kind with the additional matrix are too few.", "quantifier": "all particles, costates, sizes, inflation factors, numbers of particles, particle dimensions, nonzero weights and accepted nonlinearities", "why_tests_cant": "A test can try some particles and look at the layers they give; that no choice of particles and costates gives a layer, or that some choice does for every layer, is a statement about all of them.", "anchors": ["neuro_shooting/shooting_integrands.py:LinearInParameterAutogradShootingIntegrand.compute_parameters_directly", "neuro_shooting/shooting_models.py:AutoShootingIntegrandModelSimple", "neuro_shooting/shooting_models.py:AutoShootingIntegrandModelUpDown", "neuro_shooting/shooting_models.py:AutoShootingIntegrandModelUpDownUniversal", "neuro_shooting/activation_functions_and_derivatives.py:get_nonlinearity"]}
{"id": "C101", "title": "A small step of the training loop lowers the loss", "statement": "For a shooting block with a smooth nonlinearity and a fixed-step solver, the training loss of the functional mapping demo (mean squared error plus norm penalty) is a differentiable function of particles and costates, and one round of the training loop (set the gradients to zero, loss, backward, optimizer step, cut-off of the particles) with a small enough learning rate either leaves all parameters as they are or lowers the loss of the batch. It lowers the loss if a parameter that is neither frozen nor cut off has a gradient that is not identically zero, whatever gradients were left from before. Frozen parameters keep their values and cut-off ones stay within their bound. The rule may be gradient descent or the first step of Adam; later steps of Adam have no such property. With gradients from the adjoint method the same direction goes downhill if the solver steps are small.", "quantifier": "all particles, costates, batches, targets, weights of the loss, frozen parameters, bounds, left-over gradients, explicit solvers and grids; all rules whose direction has the sign of the gradient; exact arithmetic", "why_tests_cant": "A test can look at the loss curve of one training; that no choice of data and parameters makes a small step go uphill is a statement about all of them.", "anchors": ["demos/neurips20/simple_functional_mapping_example.py:compute_loss", "demos/neurips20/simple_functional_mapping_example.py:setup_optimizer_and_scheduler", "demos/neurips20/spiral.py:setup_optimizer_and_scheduler", "neuro_shooting/shooting_blocks.py:ShootingBlockBase.forward"]}
{"id": "C102", "title": "Without additional dimensions the order of numbers is kept", "statement": "When samples are single numbers and the class adds no dimensions to them (the simple class with one feature), the exact network keeps their order: a sample below another at one time is below it at all times, with particles that evolve, in RNN mode and with external parameters. Forward passes with a fixed-step solver and short enough steps return predictions in the order of the samples, at all requested times. Targets in another order, such as the quadratic target of the functional mapping demo, are therefore out of reach: the loss is at least the similarity weight times the square of the difference of two targets in the wrong order over twice the number of samples. With one additional dimension (up-down class, identity, at least two particles) there are particles and costates for which every sample x becomes -x.", "quantifier": "all particles, costates, weights, batches and smooth nonlinearities of at most linear growth; all consistent explicit methods; all targets and weights of the loss; exact arithmetic", "why_tests_cant": "A test can train one network and see a large loss; that no particles and costates give a smaller one is a statement about all of them.", "anchors": ["neuro_shooting/shooting_models.py:AutoShootingIntegrandModelSimple.rhs_advect_state", "neuro_shooting/shooting_models.py:AutoShootingIntegrandModelUpDown.rhs_advect_state", "demos/neurips20/simple_functional_mapping_example.py:compute_loss", "demos/neurips20/simple_functional_mapping_example.py:fcn"]}
{"id": "C103", "title": "The integrator options of an experiment reach the solver", "statement": "Every command line that a demo program accepts gives a working integrator, and every call of the ODE library has the settings asked for: the method of --method, the step size of --stepsize for the fixed-step method (adaptive methods get none from setup_integrator), the adjoint routine exactly if --adjoint was given, the tolerances written in the program, and checkpoints exactly if a positive number or interval was given; asking for both is a ValueError at the first integration. Checkpoints do not change the values. An integrator for the library anode can be created but integrates nothing as long as that package, which is not part of the repository, is missing.", "quantifier": "all command lines accepted by the parsers of spiral.py, cc.py, balls.py, rot.py and simple_functional_mapping_example.py; all times, initial values and external libraries; all options for anode", "why_tests_cant": "A test can look at the settings of one run; which options are silently not used shows only in a comparison of all command lines with what the library is called with.", "anchors": ["neuro_shooting/generic_integrator.py:GenericIntegrator", "demos/neurips20/spiral.py:setup_integrator", "demos/neurips20/balls.py:setup_integrator", "demos/neurips20/rot.py:setup_integrator", "demos/neurips20/cc.py:setup_integrator", "demos/neurips20/simple_functional_mapping_example.py:__main__", "neuro_shooting/shooting_blocks.py:ShootingBlockBase.__init__", "neuro_shooting/res_net.py:BasicResNet.__init__"]}
{"id": "C104", "title": "The norm penalty limits how sensitive a network is", "statement": "The distance of two samples of a batch changes in the exact network at most by the factor exp(c * sqrt(2 E / m) * T), in both directions: E is the norm penalty at the initial particles and costates, m the smallest weight, T the time and c a constant of the class (1 for relu, tanh, identity and sigmoid, 2 for softmax; larger only for the general class; three times that for the convolutional classes, and with group normalisation at least 3 / sqrt(eps)). A network that separates or merges two samples by some factor therefore has at least a certain norm penalty. With parameters from elsewhere (RNN mode, external parameters) the Euclidean norm of the parameters takes the place of sqrt(2 E / m). Forward passes with a fixed-step solver and short enough steps return predictions that differ in every entry by at most this factor times the distance of the samples, plus any chosen tolerance. In RNN mode this holds without a tolerance for every step size and also with nonlinearities that are not smooth: with Euler's method, the midpoint rule and the classical Runge-Kutta method, with the factor up to the end of the step; with the 3/8 rule (the method called rk4 in the integrator) with 3/2 times the exponent.", "quantifier": "all particles, costates, positive weights, batches, pairs of samples, times and step sizes; eight model classes on vectors and the three convolutional classes on images of any size, all nonlinearities of the package; all consistent explicit methods; exact arithmetic", "why_tests_cant": "A test can perturb one input of one network; a bound for all networks of a given norm penalty and all pairs of inputs is a statement about infinitely many.", "anchors": ["neuro_shooting/shooting_models.py:rhs_advect_state", "neuro_shooting/shooting_integrands.py:get_norm_penalty", "neuro_shooting/shooting_integrands.py:compute_gradients_autodiff", "neuro_shooting/activation_functions_and_derivatives.py:get_nonlinearity", "neuro_shooting/shooting_blocks.py:ShootingBlockBase.forward"]}
{"id": "C105", "title": "Figures of the functional mapping show samples, predictions and particles", "statement": "A figure of the functional-mapping program shows a cross for every sample with its target, a star for every prediction and a vertical line for every particle, and all crosses are inside the axes. Saving a figure writes three files that carry the number of the iteration; showing it adds it to the screen; the plotting settings are what they were before and no other file changes. A run makes one figure for every iteration that is a multiple of the figure frequency and one for the last iteration, none overwrites another, and they appear on the screen in order. A range of inputs that is not positive, or a frequency of zero, is an exception.", "quantifier": "both functions, all ranges of inputs, batches, predictions, particles, directories, frequencies and numbers of iterations; exact arithmetic", "why_tests_cant": "A test would have to look at figures, for one range and one number of particles; that every sample is inside the axes and no figure overwrites another must hold for all.", "anchors": ["demos/neurips20/simple_functional_mapping_example.py:_show_figure", "demos/neurips20/simple_functional_mapping_example.py:show_figure", "neuro_shooting/figure_settings.py:setup_pgf_plotting", "neuro_shooting/figure_utils.py:save_all_formats"]}
{"id": "C106", "title": "The rotated digits are split, shuffled and evaluated without loss", "statement": "Loading the rotated digits gives the first 500 sequences for training and all others for testing, in the order of the file and pixel by pixel as in the file; with fewer than 500 sequences it is an exception. One epoch shows every training sequence exactly once, in 20 batches of 25, whatever order is drawn. The evaluation reports one error per test sequence in the order of the file, each depending only on the first image and the image at the evaluation time of that sequence; if the number of test sequences leaves a remainder of one when divided by 25, the evaluation is an exception.", "quantifier": "all files with sequences of 16 images of 784 pixels, all orders of the sampler, all networks that treat samples separately, evaluation times and error measures", "why_tests_cant": "A test has one file with one number of sequences; that the split has no gap or overlap and that no sequence is left out depends on all numbers of sequences and all shuffles.", "anchors": ["demos/neurips20/utils.py:load_data", "demos/neurips20/rot.py:evaluate", "demos/neurips20/utils.py:Dataset"]}
{"id": "C107", "title": "Training with the cosine schedule uses the announced learning rates in every epoch", "statement": "The training programs for the rotated digits, the bouncing balls and the concentric circles use in epoch e of n the learning rate r (1 + cos(pi e / n)) / 2 for all batches and all groups of the optimizer: it begins with r, is positive in every epoch, decreases and is zero only after the last epoch. A run therefore consists of n epochs, each of which uses every batch that was drawn once, in this order, followed by one evaluation; it records one entry per epoch in order, with the mean of the losses of the batches (the total being the sum of similarity and norm penalty), and the losses of all batches in order. A run with fewer epochs is not the beginning of a run with more: its learning rates are smaller from the second epoch on. An epoch without batches is a division by zero; zero epochs change nothing. The parameters the optimizer was given before the first forward pass are all parameters of the block, whatever happens later.", "quantifier": "all learning rates, groups, numbers of epochs, networks, losses, optimizers, samplers and evaluations (as functions on an arbitrary state); all histories of a block; exact arithmetic", "why_tests_cant": "A test runs one number of epochs; the recursive rule of the schedule has to reproduce the closed form for all numbers of epochs, and no epoch may use the rate of another.", "anchors": ["demos/neurips20/rot.py:__main__", "demos/neurips20/rot.py:setup_optimizer_and_scheduler", "demos/neurips20/balls.py:__main__", "demos/neurips20/cc.py:__main__", "neuro_shooting/shooting_blocks.py:ShootingBlockBase.parameters"]}
{"id": "C108", "title": "The autoencoder reconstructs every fitting batch as images of 28 by 28 pixels", "statement": "A forward pass of the autoencoder succeeds, in training and in evaluation mode and for all numbers of filters and all parameters, exactly if the images have the right number of channels and need 16 blocks of 8 by 8 pixels to be covered, the batch has at least two samples, there are at least two latent dimensions and two times, and the block returns as many times as the network was built for. The result is one image of 28 by 28 pixels per sample and time with all pixels strictly between 0 and 1, so images with a black or white pixel are never reconstructed exactly. A pass changes no trainable parameter, leaves running variances nonnegative, and changes nothing at all in evaluation mode. In evaluation mode the reconstruction of a sample depends only on its own image, not on the rest of the batch, if the block treats samples separately; the decoder returns one image per latent value in order. In both modes samples given in another order are reconstructed in this order and otherwise unchanged. In training mode a batch normalisation gives every channel the mean and variance set by its two parameters, and the biases of the five convolutions before a batch normalisation have no effect on the result. The transposed convolutions are the transposes of convolutions with the same weights.", "quantifier": "all numbers of filters, channels, latent dimensions and times, all parameters and running statistics, all batches of images of all sizes, all blocks, both modes; exact arithmetic", "why_tests_cant": "A test uses one number of filters and one image size; which sizes are accepted, and that no batch makes a sample depend on another one, is a statement about all of them.", "anchors": ["demos/neurips20/autoencoder.py:ShootingAE", "demos/neurips20/autoencoder.py:ShootingAEMasked", "demos/neurips20/autoencoder.py:Flatten", "demos/neurips20/autoencoder.py:UnFlatten"]}
{"id": "C109", "title": "The analysis notebooks report and draw what the programs saved", "statement": "The printed success rate of the circles experiment is the percentage of runs that classify every test sample correctly after the last epoch. Every sampled trajectory is drawn with its own points in the colour of its own class, for any division into batches, and recorded values are drawn in the order of time. In the table of the digits experiment every run has its own arguments and the test error its program printed last; the error printed for a group is the mean over exactly the runs with the group's arguments and does not depend on the order of the directories; the figures of a group are those of its runs, and no run is in both groups. The loss curves show every epoch. Representations are those of all test sequences in order; in the plots every point has the colour of its angle; a picture shows the test sequence with the given number. The errors printed for the bouncing balls are the means over all test sequences for each time point, and their mean is the saved test error. Runs without an epoch, too few or too many angles and other numbers of time points than ten are reported by exceptions.", "quantifier": "all numbers of runs, epochs, samples, batches, angles and time points, all recorded values and arguments, all random draws, all orders of directories, all sorting results; exact arithmetic", "why_tests_cant": "A test compares a figure for one set of saved runs; whether labels, colours and numbers belong to the right sample for every number of samples and every random draw is a statement about all of them.", "anchors": ["demos/neurips20/Analysis-ConcentricCircles.ipynb", "demos/neurips20/Analysis-RotatedMNIST.ipynb", "demos/neurips20/Analysis-BouncingBalls.ipynb", "demos/neurips20/cc.py:test", "demos/neurips20/rot.py:evaluate", "demos/neurips20/balls.py:evaluate"]}
