# Formal model of neuro_shooting

This document says what is modelled, how each property of `properties.jsonl` is stated and proved,
and what has to be trusted.  The model is a Lean 4 project in `lean/`; sources are under
`lean/Verif/`, one directory per part of the code base:

* `Model.lean`  – definitions that mirror the Python functions branch by branch, each citing the
  lines of `/repo` it models;
* `Spec.lean`   – (where useful) a small independent specification;
* `Lemmas.lean` – helper lemmas;
* `Props.lean`  – the property theorems, each with an `example` showing that its hypotheses are met
  by a concrete non-trivial case.

## Trusted base

* Lean's kernel (4.33.0) and the axioms `propext`, `Classical.choice`, `Quot.sound`.  No other
  axiom is used, no `sorry`, no `native_decide`/`bv_decide`.  `AXIOMS.md` lists the axioms of every
  theorem named in `MANIFEST.json` (output of `#print axioms`).
* The reading of the Python source: nothing is extracted from the code, the link is the line
  citation at each definition.
* Semantics of the libraries the code calls, as fixed by the model:
  * `SortedDict`: a list of key/value pairs strictly sorted by key (Python compares strings by code
    point; so does Lean).  Plain `dict`/`OrderedDict`: association list in insertion order.
  * `torch.Tensor`: a shape and a row-major list of elements; `view`, `cat`, slicing, `zeros`,
    indexing are defined by their documented index arithmetic.  Dtype, device and
    memory layout are not modelled.
  * numbers: element values are either abstract (any type) or real/rational numbers.  Floating
    point rounding is outside the model, except in C96, which bounds what errors in every operation
    of an integration do to a forward pass.
  * Python exceptions are values of an `Err` type carried by `Except`.
  * autograd: `torch.autograd.grad` is the mathematical partial derivative.
  * ODE solvers (`torchdiffeq`): a parameter of the model, with the needed hypothesis stated in the
    theorem; fixed-step explicit Euler, midpoint and Runge–Kutta schemes with their grids and their linear interpolation are
    defined where a concrete solver is needed (`Converge/Model.lean`), in exact arithmetic and from the documented behaviour of the library.
  * `odeint_adjoint` of torchdiffeq (`Adjoint`): values are those of the equation, the gradient of the initial values is the result of the adjoint equation (exact solutions), only the initial values and
    `func.parameters()` get gradients.
  * `argparse` (`Options/Argparse.lean`): long options with separate or attached values, unique abbreviations, `--help`, negative numbers, conversion to `int`, `float` (decimal notation; not `inf`, `nan` or underscores) and
    `str`, choices.  No program of the repository uses positional arguments, groups or repeated values.
  * random numbers, files, processes, plotting: not modelled, except where a property is about
    the bookkeeping around them (a drawn index is an arbitrary index of the right range; a set of
    finished runs stands for the result files).

## Plan per property

| id | model | proof idea |
|----|-------|------------|
| C01, C02, C03, C04 | `Assembly`: dict assembly and disassembly over sorted association lists of tensors; errors as values | induction over keys, then over blocks, generalising the running offset |
| C05, C06, C49, C50 | `Dicts`: merge, tuple conversion, zero dictionaries, key extraction | induction over key lists; prefixing is strictly monotone on strings |
| C07, C08 | `Concat`: concatenation and splitting along a dimension, tensors as outer × n × inner | induction over blocks with running offset per key |
| C09–C13 | `Integrator`: the `while` loop as recursion on the two remaining lists; constructor | invariant over the loop; integrator as a parameter with restart hypothesis for C11; counterexamples for decreasing time |
| C14, C15 | `TimeParams`: cached lookup as a state machine | invariant (cache consistent) over all query histories; C15 is false of the code: negation with witness, and the proved part (`_partial`) |
| C16–C20 | `Scheduler`: full state machine incl. NaN/±inf metrics | invariants by induction over metric lists; measure argument for C18 |
| C21, C22 | `Striding` | index arithmetic, index-level spec of strided slices |
| C23, C24 | `Enlarge` | induction over dimensions; multiset argument for "each parameter exactly once" |
| C25, C26 | `Sweep`: including the mutable default arguments as explicit store | induction over option list = Cartesian product; C26 is false: witness, and the proved part for fresh arguments |
| C27, C28, C29, C53 | `Cli`: strings and run bookkeeping | induction over lists; resume = filter of missing runs |
| C30, C31 | `Activation` over ℝ | `HasDerivAt`; sigmoid is a counterexample (code returns the function itself) |
| C32, C33, general C34, C35 | `Shooting`: any right-hand side affine in its parameters, particles and parameters indexed by finite types | completing the square; geometric contraction; envelope argument for the total derivative of the Lagrangian; chain rule along a trajectory |
| C34, C35, C32 per class | `Models`: every vector class as real matrices, forward equations and hand-written equations | instantiate the general theorems; `HasDerivAt` along every direction; concrete counterexamples |
| C36, dictionary parts of C32, C33 | `Energy`: dictionaries of parameter objects with weights | list induction |
| C37, C38, C57 | `Integrand`: state machine of reset, RNN cache, particle-free parameters, hooks, norm penalty | induction over event lists |
| C39–C41 | `Block`: state machine of a shooting block (forward pass, enlargement, times, concatenation) | induction over event lists and over chains of blocks; witnesses for the defects |
| C42 | `ResNet`: construction and forward of the residual network on top of `Striding` and abstract blocks | list induction, relational specification of the data flow; witness for single-block networks |
| C43 | `Init` | case analysis over the options |
| C44 | `Latex` | prefix-code argument |
| C45, C46 | `Chunks`: cutting of a time vector, chunked prediction | strong induction; non-termination witness for chunk size 1 |
| C47 | `Layers` (overwrite_classes.py) | dictionary induction over histories |
| C48 | `ParamUtils` (utils.py) | list induction |
| C51, C52 | `Evolution`: explicit fixed-step methods as straight-line programs over the shooting vector field | permutation of finite sums; locality of the field; induction over program and steps |
| C54 | `Batches` | interval arithmetic |
| C55 | `Complexity` | list induction |
| C56 | `Discrete`; `Discrete/Invert.lean`: networks whose layers keep two states can be undone | induction over layers |
| C58 | `Shapes`: sizes of states, derivatives and initial data of every model class, with broadcasting | case analysis per class; exact conditions |
| C59, and C32, C35, C51, C52 for convolutions | `Conv`: 3×3 zero-padded convolution, group normalisation | exchanging finite sums; reindexing; derivative of the normalisation along lines, its symmetry; instantiation of the general theorems |
| C60–C63 | `Symmetry`: copies of particles, samples at particles, zero costates, rotations; uses the vector field of `Evolution` | locality of the costate derivative (row form); uniqueness of the minimiser; uniqueness of derivatives; linear maps commute with the steps |
| C64 | `Transport`: kinetic energy of motion, gradient iteration of the optimal transport class | completing the square; least squares; induction over the iterations in eigendirections |
| C65 | `Hooks`: the recording hook as a program with state and exceptions; memory of tensors shared with records | the hook equals appending a list of named values; injectivity of names; induction over histories; singular value decomposition |
| C66 | `Flow`: integration methods as programs over vectors; blocks and integrands joined; derivatives carry the names `dot_...` | the vector of a combination is the combination of the vectors (induction over names); induction over the method |
| C67 | `Whole`: the classes of `Models` on dictionaries of tensors, joined with `Integrand`, `Flow` and `Block`; `Spec` has integration methods on functions of coordinates | encoding of rows as tensors and back; simulation by induction over the method; sample and order from a map lemma for such runs; a concrete step size control for the negation; layouts and inputs of the image classes and of the classes with a second state (`Images`, `Inputs`); particles and samples of different sizes have separate layouts (`C67_forward_sizes`, as in the residual network with particles of 15×15 pixels) |
| C68 | `Converge`: one-step methods by their coefficients, on grids of times, with linear interpolation, as programs of `Flow`; `Spec` has the same on vectors | smooth right-hand sides: bounds near the compact trajectory; discrete Gronwall over the grid; continuous differentiability of the shooting equations of every class; C67 for blocks |
| C69 | `Converge/Exist`, `Bounded`, `Global` | local existence (Picard-Lindelöf), continuation of a bounded solution; the kinetic energy is constant (C35) and bounds the parameters, so states grow at most exponentially (Gronwall) and then costates; uniqueness from C68; the convolutional classes (with group norm) in `Images`; samples with other coordinates than particles: `C69_global_sizes` |
| C70 | `Masked` | the selection is a sorted permutation of the shuffled rest, so the loss is a sum over the times that are not left out; epochs as a fold over the mode of the network |
| C71 | `Checkpoint` | saving as a list of effects (open, fill); invariant "the best epoch so far is on the disk" between epochs; crash = a prefix of the effects |
| C72 | `Spheres` | real arithmetic for the radii; sums over batches are sums over the flattened data; loaders as chunks of a list |
| C73 | `Iterated` | the error of the iteration is an explicit power; the reduced Lagrangian after n steps is the minimum plus a weighted square, differentiate |
| C74 | `Standalone` | the script is modelled on the same tensors as `Models`, equality of all quantities; gradients by the envelope argument of C34; convergence from C68 |
| C75 | `Scale` | homogeneity of the energies gives the scaling of the field; scaling of every Runge-Kutta step by induction over stages and grid; forward passes through C67; bijectivity from C69 and the reversed solution |
| C76 | `Training` | loops with exceptions as folds; schedule and events by induction over epochs and batches; what is learned as a refinement of a pure fold (`learnEpoch`); freezing and clamping as invariants of every (also failing) run; data and figures by algebra |
| C77 | `Training` | as C76; pairs of runs related by a simulation for the influence of figure options; concrete pair of runs for the negation |
| C78 | `Shell`: the line given to `os.system`; `Spec` has a small shell (words, quotes, backslashes, `&&`, redirections, aliases) | reading a text is a fold over characters; texts that are read as one word, and texts that double quotes keep, are closed under joining; the line is read piece by piece by both shells |
| C79 | `Later`: two blocks in one integrated vector; `Spec` says when rows are two kinds of coordinates side by side; `Network` has stages on functions of coordinates | the simulation of C67 repeated for vectors with two blocks; concatenating blocks encodes putting coordinates side by side; composition by induction over the list of blocks; sample and order by induction over the stages |
| C80 | `Residual`: striding and enlargement as functions of coordinates (`Spec`), networks as steps; the model is `ResNet`, `Block`, `Enlarge`, `Striding` | enlarging is natural in the elements, so enlarging a tensor of symbols shows where every value goes and that the values around the middle do not depend on it; striding encodes forgetting coordinates (C21); blocks from C79 with the changed dictionaries; composition by induction over the stages of the network |
| C81 | `Optimal`: parameters that vary with time and their cost (`Spec`); the model is `Shooting` | the costates solve the adjoint equation, so the derivative of their pairing with the displacement is the first variation plus a Taylor remainder (`Taylor`, `Variation`); Gronwall with time-varying rates bounds the displacement by the distance of the parameters in L2, uniformly in the competitor; short intervals make the remainder smaller than the convex gain; the cost by energy conservation (C35) |
| C82 | `Optimal/Exist`, `Necessary`, `System`; the model is `Shooting`, `Evolution` | driven states exist (Picard-Lindelöf with continuation) and are unique (Gronwall); at an optimum a step along the negative gradient would lower the cost unless the parameters are the ones computed from the adjoint, which is the costate; the equations of the library have a unique solution (C68), which is this trajectory |
| C83 | `Options`: argument parsing as an environment model (`Argparse`), the tables of options of the five demo programs and three kinds of experiments, the choice of classes, the sweeps of four experiment scripts | induction over the argument list with the parser as a state machine; an invariant (every option has a value of its type) for arbitrary command lines; the tables are checked against each other by evaluation in the kernel; combined with C25, C28 and C78 for the lines given to the shell; decimal numbers by induction over their digits (`Options/Decimals`) |
| C84 | `Adjoint`: the backward pass of the adjoint method (`Spec`), what is constant for it in each mode (`Model`); the equations are those of `Evolution` | the pairing of a solution of the adjoint equation with the difference of two solutions changes only by a Taylor remainder, which is of higher order uniformly along the trajectory; solutions that start close stay close (Gronwall with a first exit time); existence by C69 and Picard-Lindelöf for the linear equation; without dependence of the parameters on the particles the predictions do not depend on them, so the result is zero, while the true derivative in an example is one |
| C85 | `Backprop`, on the solvers of `Converge` and the sources of parameters of `Adjoint` | the derivative of a Runge-Kutta step is a Runge-Kutta step of the equations together with their linearisation, so the convergence theorem behind C68 applies to values and derivatives at once; a solution of the adjoint equation paired with a solution of the linearisation is constant, which identifies the limit with the backward pass of C84; kept parameters become coordinates of the system that do not change; the differences in RNN mode and for directly optimised parameters from `C84_rnn_wrong`, `C84_direct_wrong` and the limit |
| C86 | `Figures`: a world with the backend and settings of matplotlib, directories, files and shown figures; figures are what is drawn (curves, paths, arrows), not pixels; names of files with padded numbers (`Names`) | case analysis of the program, invariants of sequences of steps, injectivity of names; the order of padded names by induction on the width |
| C87 | `Figures`: frames, pattern and alphabetical order of file names, the call of `convert` | induction over the times: the files written so far are exactly the frames so far; sorting a sorted list changes nothing |
| C88 | `Tables`: names cut at dots, the two loops over the parameters, tables as lists of rows, removal of dimensions of size one, sorting, `imshow` | invariant of the second loop: after k layers the first k rows are filled; arbitrary names without dots in the first two parts |
| C89 | `Datasets`: the data set class with its stored tensors and the position in the random numbers, batches of a loader with `drop_last`, collation and transposition, the four loaders; the equation behind the data over the reals | pieces of the index list, loop invariants of accesses and batches; a shifted solution of an autonomous equation is a solution; first integrals for the explicit spiral |
| C90 | `LongRange`: `Chunks` used with the shooting block of `Block` and `Whole` | chunked prediction is the glued chain of short predictions; projection of Runge-Kutta steps to the samples; blocks with one particle as witnesses that chunks matter |
| C91 | `Horizon`: the test script of the integration time on the shooting block of `Block` and `Whole`, the solvers of `Converge` | the grid for a step size computed by induction over the steps; closed form of the value at every requested time; the two ways of asking compared through it; one-particle blocks as witnesses that times matter without a step size and inside the last step |
| C92 | `Census`: `named_parameters` with the numbers of values for the network of `ResNet`, and the counting loop of tests/striding_and_upsampling.py | an invariant of the network (every block has the shapes it was asked for, its register consists of its own names and those of its margins, margins exist where sizes differ) kept by passes and optimiser steps; the list read off the invariant layer by layer |
| C93 | `Gradcheck`: tests/autograd_gradient_test.py (loss, `zero_grads`, `backward` as accumulation of derivatives, comparison, counts) on the block of `Whole`, with the norm penalty read from the memory after a pass | the memory followed through an integration together with the last evaluation at time 0; equality of the two equations (C34, C68_exact) carried to output and penalty; differentiability of the solver outputs (C85); the comparison by induction over the elements |
| C94 | `Order`, on the solvers of `Converge`; `Spec` has the conditions of Butcher for any number of stages | the derivatives of the exact solution and of one step with respect to the step length, up to the fourth, are computed as iterated derivatives along the equations and agree under the conditions; Taylor with a uniform bound near the compact trajectory; discrete Gronwall over the grid; interpolation error from the second derivative; blocks by C67, exact solutions by C69; attained bounds by exact calculation for powers of time |
| C95 | `Recompute`: the stored plans, the memory of the integrand kept also after exceptions, passes, chunks with checkpoints, evaluations in any order; on `Integrand` and `Flow` | an evaluation that succeeded gives the same in every memory reached from it by evaluations; carried over integration methods by induction over the method and over chunks; plans by induction over the history |
| C96 | `Rounding`: `Spec` says what it means to carry out a method with errors in every operation (relations, not functions); on the solvers of `Converge` and `Order` | one step with perturbed stages is a smooth function of value and perturbations, so it has a Lipschitz constant near the compact trajectory; discrete Gronwall over the grid; errors of single steps collected into the error of the combinations; blocks by taking the returned vectors apart as in C66 and C67 |
| C97 | `Sessions`: passes, recordings without `try`, histories of both on the state machine of `Integrand`; the hook of `cc.py` with tensors in memory (`Hooks`) | invariant: the registered hooks are those of the failed recordings; induction over passes and histories |
| C98 | `Tensorboard`: the hook as a function of one call, the writer as a list | case analysis; induction over the calls of a training |
| C99 | `Symmetry.Mirror`: motions of the pixel grid as an inductive set, on the convolutional classes of `Conv` | a reflection moves the entries of a 3×3 kernel and commutes with zero padding; then the general symmetry theorem of C63 |
| C100 | `Capacity`: the parameters `directParameters` of the classes of `Models` and `Conv` as matrices | a layer is a sum of outer products of costates and activations; two constructions of particles for a given layer (one row per output with the intermediate value theorem, one row per input); too few rows contradict linear independence of the costates and the vector of ones |
| C101 | `Descent`: the loss of the demo on the block of `Whole`, gradients as attributes that `backward` adds to, optimizer rules for one number (SGD, Adam as documented by torch), cut-off, frozen parameters | the loss is differentiable as in C93; in coordinates the round moves every number against its gradient or, at its bound, not at all; sign of the derivative along the step; C85 for the adjoint method |
| C102 | exact solutions of `Converge`, the block of `Whole` for samples that are single numbers, the loss of `Descent` (`Ordering`) | two samples never meet (uniqueness, C69), so the intermediate value theorem keeps their order; distance on a compact interval and convergence (C68) for forward passes; for the reversal a rotation by half a turn, whose parameters two particles can produce (C100) |
| C103 | arguments of the calls of the ODE library, the functions `setup_integrator`, the integrators of blocks, the classifier and the neural ODE (`Solvers`), on the parsers of `Options` and the constructor of `Integrator` | types of accepted options (C83), then cases over the three methods; checkpoints by C11; every anode integration fails in its first piece |
| C104 | exact solutions of `Converge` with any source of parameters, eight classes of `Models` and three of `Conv`, the block of `Whole` (`Sensitivity`) | every class moves two samples apart at most as fast as the norm of the parameters times their distance (Cauchy-Schwarz, the nonlinearities are Lipschitz); the norm is bounded by the norm penalty, which is constant (C35); exponential bounds on the squared distance; convergence (C68) for forward passes; in RNN mode step by step (`Sensitivity/Steps`): every stage of an explicit method is bounded with the absolute values of its coefficients, which gives a polynomial below the exponential for the methods in use; convolutions (`Sensitivity/Images`): every pixel lies in at most nine windows, so the factor is 3, and group normalisation is Lipschitz with constant 1/sqrt(eps) |
| C105 | drawing, saving and showing of one figure and the figures of a run (`Figures/Samples`), on the world of `Figures` and the range of C76 | the range is never empty; samples inside by C76; induction over the iterations, file names differ because numbers can be read off |
| C106 | `load_data`, a pass of the training loader, `evaluate` with the test loader (`Rotated`), on the loaders of `Spheres` and the batches of `Masked` | index arithmetic of row-major tensors; the lengths of batches by induction; errors of batches from C70 |
| C107 | the loops over epochs of `rot.py`, `balls.py` and `cc.py` with the schedule (`Annealed`); network, optimizer and sampler are functions on an arbitrary state; `CosineAnnealingLR` by its recursive rule | the recursion has the closed form (the denominators are positive before the last epoch); induction over the epochs against a relation that lists them; `reg` of `Block` is invariant without pass-through inputs |
| C108 | the layers of `autoencoder.py` by what they compute (sizes, values, exceptions, running statistics), both networks as lists of layers, `forward` with the block as a parameter (`Autoencoder`); the masked pass is in `Masked` | sizes by following the layers with symbolic sizes; in evaluation mode every layer commutes with the selection of a sample; the statistics of a batch follow a shift of a channel; every layer respects a relation between batches (same pixels in another order); inner products by reindexing the sums |
| C109 | the computations of the three notebooks, cell by cell (`Notebooks`): success rate, joined trajectories, sorted recordings, table and queries, loss curves, labels and colours, saved pictures, means; embeddings and the model are parameters, drawing is the list of what is drawn | induction over runs, batches and directories; positions in flattened lists by division with remainder; orders of time by permutations; sums over columns and rows exchanged |

## What is modelled, file by file

| file in /repo/neuro_shooting | modelled | not modelled |
|---|---|---|
| state_costate_and_data_dictionary_utils.py | all functions (`Assembly`, `Dicts`, `Concat`) | |
| generic_integrator.py | constructor, interval creation, checkpointed integration (`Integrator`), the arguments of the library calls and the missing `anode` package (`Solvers`) | the solvers are outside the repository: `Flow` has a class of programs that contains them, `Converge` the fixed-grid ones (euler, midpoint, rk4); the memory saving by checkpointing (gradients are recomputed by torch) |
| shooting_integrands.py | parameter lookup over time (`TimeParams`), parameter computation (`Shooting`, `Energy`), derivatives, RNN cache, hooks, norm penalty, particle-free modes (`Integrand`), evaluation on vectors (`Flow`) | device transfer, printing |
| shooting_models.py | every class: state sizes, forward equations, initial data (`Shapes`), vector classes' equations and hand-written costate equations (`Models`; on dictionaries of tensors: `Whole`), convolutional classes (`Conv`; in blocks and for convergence: `Whole/Images`, `Converge/Images`) | the numerical value of random initialisations |
| shooting_blocks.py | forward pass, time handling, enlargement parameters, key extraction (`Block`, `Enlarge`), integration of the vectors (`Flow`), forward pass with a concrete class (`Whole`), later blocks (`Later`), enlarged pass-through particles (`Residual`) | device transfer except for the time vector |
| res_net.py | construction and forward (`ResNet`), what a forward pass computes (`Residual`), names and sizes of all parameters (`Census`) | the numerical content of batch normalisation and the linear head |
| striding_block.py | all (`Striding`) | |
| overwrite_classes.py | parameter removal, weights, forward look-ups (`Layers`) | numerical content of linear/convolution in this file (see `Models`, `Conv`) |
| parameter_initialization.py | all decision logic and sizes (`Init`) | distribution of random numbers |
| activation_functions_and_derivatives.py | all (`Activation`) | |
| custom_lr_scheduler.py | all (`Scheduler`) | printing; floating point |
| experiment_utils.py, command_line_execution_tools.py | sweeps, names, arguments, bookkeeping (`Sweep`, `Cli`), the executed line (`Shell`), parsers and the options of jobs (`Options`) | spawning processes, file contents |
| utils.py | parameter counts, freezing, LaTeX escaping (`ParamUtils`, `Latex`) | plotting setup |
| shooting_hooks.py | all (`Hooks`) | how torch computes singular values |
| validation_measures.py | complexity measures (`Complexity`) | |
| demos: spiral.py, simple_functional_mapping_example.py, simple_discrete_neural_networks.py | one round of the training loop with SGD or the first step of Adam (`Descent`); chunked validation, batch selection, discrete networks (`Chunks`, `LongRange`, `Batches`, `Discrete`); tables of parameters (`Tables`); data sets and loaders, the equation of the data (`Datasets`); training programs: data, losses, epochs, batches, evaluation, freezing, clamping, learning rate, saved results (`Training`); command lines and choice of models, also of cc.py, rot.py, balls.py and of the run_*.py scripts (`Options`) | autograd and Adam (arbitrary functions), content of plots |
| demos: autoencoder.py, rot.py, balls.py | masked and full forward pass, losses, mode of the network, evaluation, saving (`Masked`, `Checkpoint`), the data of rot.py (`Rotated`), the layers of encoder and decoder (`Autoencoder`), training with the cosine schedule (`Annealed`) | plots |
| demos: cc.py, utils.py; data_loaders.py | random points, data sets, samples, training and test figures, loaders, seeding order (`Spheres`) | which numbers a seed gives; the pixels of augmented images |
| tests: test_standalone_shooting_updown.py, autograd_versus_manualgrad.py, raw_fixed_point_check.py | all equations, time stepping, finite differences (`Standalone`, `Iterated`) | plots, printing |
| tests: integration_time_test.py | all times at once and one by one (`Horizon`) | printing |
| tests: striding_and_upsampling.py | the expected parameters and the counting loop (`Census`) | printing, the gradient step at the end |
| tests: autograd_gradient_test.py | loss, gradients, comparison, counts (`Gradcheck`) | printing; devices; the mean of an empty batch |
| tests: autodiff_tries.py | all functions, both losses and the gradients compared at the end (`Gradcheck.Tries`) | printing |
| vector_visualization.py, figure_utils.py, figure_settings.py | what is drawn, shown and saved under which name, settings of matplotlib (`Figures`) | pixels, labels, colours; `convert` is taken to use the files in the order given by the shell; fonts (`set_font_size_for_axis`) |
| tensorboard_shooting_hooks.py | all (`Tensorboard`) | how images are stored |
| demos: Analysis-*.ipynb | what is computed and drawn (`Notebooks`) | axes and labels of figures; the Frobenius norms; syntax: some lines of `Analysis-BouncingBalls.ipynb` (24, 27, 28 and others) end in a stray character, so these cells do not run as they are; they are modelled without it |
| docs, download scripts | | plotting and I/O only |

## Disagreements between intended properties and code

Each of these is a theorem (a witness or a general negative result), named in brackets.

* **C04** rank-0 tensors are assembled without complaint but cannot be read back (`C04_rank0_not_readable`);
  a vector longer than the plan is accepted and the surplus ignored (`C04_surplus_ignored`).
* **C06** a parameter that is `None` is skipped when the tuple is made but not when it is taken apart:
  IndexError (`C06_none_parameter_raises`).
* **C08** a later block that lacks keys is accepted silently (`C08_missing_key_accepted`).
* **C60** if the copies of the particles are not equally many, the computed parameters change (`C60_uniform_needed`); weights that vary inside a
  parameter tensor break the rotation symmetry (`C63_per_tensor_needed`).  Both are limits of the property, not defects.
* **C12** with decreasing times requested points are lost or nothing is returned
  (`C12_decreasing_loses_points`, `C12_decreasing_returns_none`); anode with checkpoints always raises (`C12_anode_rejected`).
* **C13** the options dictionary is shared with the caller, so the step size leaks (`C13_shared_options`).
* **C15** the parameters returned for a time depend on the queries made before (`C15_history_dependent`).
* **C16** a parameter group added to the optimizer later makes the first reduction raise (`C16_added_group_raises`).
* **C18** in `min`/`rel` mode a constant negative metric counts as an improvement forever (`C18_negative_metric_never_converges`).
* **C21** the comment "the center element is kept" holds only for sizes 3 mod 4 (`C21_center_kept_iff`); a dimension
  smaller than its stride vanishes (`C21_small_dimension_vanishes`).
* **C24** parameters are paired with tensors by position, an extra key is lost, the target size is stored by reference,
  more dimensions are accepted (`C24_extra_key_lost`, `C24_stored_target_is_shared`, `C24_more_dimensions_accepted`).
* **C26** sweeps accumulate in a mutable default argument (`C26_sweeps_accumulate`, `C26_false`).
* **C27** values with spaces change the argument list (`C27_spaces_confuse`); adding nothing to an empty
  configuration string gives the text for None (`C27_config_string_none`).
* **C28** `False` in a sweep does not switch off a flag of the template (`C28_false_flag_stays`).
* **C29** two runs with the same name: the second is skipped (`C29_same_name_skipped`).
* **C30** the derivative returned for `sigmoid` is the sigmoid itself (`C30_sigmoid_false`).
* **C32** a missing object is meant to raise ValueError, but the exception is built and not raised; a KeyError follows (`C32_missing_object`).
* **C33** for weights of 4 and more the iteration diverges (`C33_diverges`).
* **C34** the hand-written costate equation of the class dampening q2 lacks the dampening term (`C34_dampenedQ2_false`);
  the bias formulas hold only for particle dimension 1 (`C34_bias_false`); the simple class is wrong for square shapes
  (`C34_simple_square_false`); the symmetrized class divides by the weight of another layer (`C34_symmetrized_weights_false`).
* **C35** with dampening the norm penalty is not constant (`C35_dampening_not_constant`); explicit Euler steps do not
  conserve it (`C35_euler_not_constant`).
* **C37** particle-free parameters with automatic differentiation always raise (`C37_external_autodiff_raises`), the
  transpose option always raises (`C37_transpose_raises`).
* **C39** after a first pass that fails late a block can be stuck (`C39_stuck`); keeping new state at zero raises
  (`C39_keep_zero_raises`); an enlargement parameter may be overwritten and never trained (`C39_lost`).
* **C40** moving a block that has a time vector raises (`C40_move`); a time vector makes the outputs be concatenated along
  the wrong dimension (`C40_vector_concat_wrong_dimension`).
* **C41** enlargement parameters of an earlier pass hide a repeated name (`C41_hidden_name`).
* **C42** a network with a single block ignores that block (`C42_single_block_ignored`); an empty first layer raises
  UnboundLocalError (`C42_empty_first_layer`).
* **C43** constants are not available for convolution initialisers (`C43_constant_conv_false`); sample batches may change
  the size (`C43_sample_grows`).
* **C45** with chunks of one point the loop never ends (`C45_terminates_iff`).
* **C46** restarting the times is wrong on non-uniform grids (`C46_nonuniform_wrong`); a block that returns one value instead of one per time is not noticed with a single chunk, the value is used for all times (`C46_single_value`).
* **C90** (not a defect, but not what a long prediction is) long range validation in chunks restarts the particles and every variable that is not returned with each chunk: the result differs from one prediction for all times (`C90_particles_differ`, `C90_hidden_state_lost`).
* **C91** (not a defect) without a step size the predicted value at a time depends on which other times are asked for (`C91_no_step_size`), with one it does only inside the last step (`C91_between_differ`).
* **C92** (not a defect of the library) the script tests/striding_and_upsampling.py does not notice parameters that are expected but do not exist: it only goes through those that do (`C92_missing_not_noticed`).
* **C93** (not a defect of the library) tests/autograd_gradient_test.py ends with a `RuntimeError` when a gradient is identically zero in both computations: the maximum of no elements (`C93_script`, `C93_compare`).
* **C95** `disassemble_tensor` of an integrand documents the argument `assembly_plans` but raises `ValueError` whenever it is given (`shooting_integrands.py:257-260`; `C95_explicit_plans`). A pass with another batch size or, in RNN mode, with other values between a forward pass and its backward pass changes what the adjoint method and checkpoints compute: an exception, derivatives of another length, or the parameters of the other pass (`C95_other_sizes`, `C95_rnn_other_pass`; `C95_passes_between_partial` is what holds).
* **C47** convolutions without bias and normalisations without affine parameters raise KeyError in forward (`C47_conv_forward`).
* **C48** freezing a list with an unknown name is not atomic (`C48_unknown`).
* **C53** values with underscores can give equal names (`C53_underscore_collision`, `C53_print_collision`).
  The model named in a job name is not necessarily passed to the script (`C53_model_not_passed`).
* **C54** the last possible window is never drawn (`C54_last_window_never`); windows of one point make the distance-based
  selection raise.
* **C55** a recorded value of zero gives a non-finite measure (`C55_zero_values`); recordings of different lengths are accepted when one side has two entries (`C55_lengths_accepted`).
* **C56** the recurrent network with step 1/n does not compose (`C56_rnn_not_deeper`). A network of layers with one state cannot be undone in general (`C56_single_not_invertible`), one of layers with two states can (`C56_double_nets_invertible`).
* **C58** the symmetrized class with its default inflation factor never fits (`C58_symmetrized_default_wrong`); the trainable
  starts of the convolutional up-down class are ignored or never fit (`C58_upDownConv_trainable`).
* **C64** the ten iterations can diverge (`C64_diverges`); the data can move at random although the particles are at rest
  (`C64_random_data`); copying the particles multiplies the weight (`C64_copies`, unlike C60); the default weight None raises
  (`C64_weight_required`), and so do external parameters (`C64_external_raises`).
* **C65** records of tensors on the CPU share memory with the tensors, so later in-place changes rewrite them (`C65_shared`); with parameters on
  another device (`C65_gpu_raises`) or parameters that are not matrices (`C65_not_matrix`) the hook raises after a part has been recorded; the recorded
  energy ignores the weights (`C65_energy_ignores_weights`); a `defaultdict` with another default passes the check and fails (`C65_other_default`);
  names with dots can share a record (`C65_dots_collide`).
* **C67** with a step size control that looks at all coordinates the result for a sample depends on the other samples of the batch
  (`C67_adaptive`).  A limit of adaptive methods, not a defect; the default method `dopri5` of the code is adaptive.  C67 covers the first block of a
  network (no dictionaries passed through) with concatenated parameters, the default of all classes; C79 covers the others, for an integration time (with a
  vector of times their outputs are concatenated along the wrong dimension, see C40).
* **C79** with hand-written formulas a network can only have one block (`C79_analytic`: `ValueError`, as the code says).  The dampened up-down class has coefficients
  of size 1 in every block, which would also be put side by side; it is not covered.
* **C80** a residual network whose first pass fails in the integration of an enlarging block (one bad batch is enough) is unusable from then on: every later call of the
  block raises the `ValueError` "Enlargement parameters have previously been created" (`C80_failed_first`; `shooting_blocks.py:589-596`: the parameters are stored before the
  integration, the flag is cleared after it).  `C80_again` is therefore about passes whose integrations succeed.
* **C68, C69** do not cover `relu` (the equations are not differentiable where an argument is zero), the classes with damping (their kinetic energy is not
  constant; `C68_converge` and `C68_forward` apply to them as long as a solution exists), nor adaptive methods. The same holds for C94 (`C94_converge`, `C94_forward`); its conditions stop at order four.
* **C39** enlargement parameters of keys `a.b` and `a__b` have the same name, so one replaces the other (`C39_dots_collide`).
* **C70** `i_eval = 0` is accepted although the images at that time are the input of the network (`C70_first_time_leaks`); a batch with a single
  sample raises (`C70_single_sample`, `C70_defined`); `rot.py` never returns to training mode after the first evaluation (`C70_mode_rot`).
* **C71** if the error of the first epoch is NaN nothing is ever saved (`C71_nan_first`); the files are written in place, so a crash can destroy the
  best model (`C71_crash_destroys`) or leave a model and statistics of different epochs (`C71_crash_mixes`).
* **C72** points of the outer shell are not uniform (`C72_uniform`); a balanced sample of `N` has `2N` points (`C72_sample`); the training loss is a
  mean of means of batches (`C72_train_uneven`); the test loaders drop the last incomplete batch (`C72_image_loaders`, `C72_dropped`); augmented CIFAR images
  are cropped to the size of MNIST images (`C72_sizes`); the data are generated before the seed is set (`C72_seed_data`).
* **C73** two evaluations of a class with iterated parameters at the same state and costate differ, because the iteration starts from random numbers every time
  (`C73_not_reproducible`); the hand-written equations of `raw_fixed_point_check.py` have the right costate but 5/4 of the right derivative of the state (`C73_raw_check`).
* **C74** the manual equations of `autograd_versus_manualgrad.py` divide by the number of features, which the library does not do (`C74_manual`, `C74_manual_false`); with a time step
  that does not divide 1 the stand-alone program stops early (`C74_end_time`).
* **C75** holds for the classes without damping only (`C75_damped_false`).
* **C76** fails in several ways for `simple_functional_mapping_example.py`: with any of the six options for comparison networks the program stops with a `NameError` before the first step (`C76_comparison`; `uses_particles` is set only for shooting
  networks, `weight_decay` not for the neural ODE); with a batch size above the number of samples nothing is trained, no warning is given and results are saved (`C76_no_batches`); the saved `norm_penalty` is the weighted norm loss
  (`C76_norm_penalty`); `--clamp_range` without particles raises a `KeyError` after the first step (`C76_clamp_particle_free`); the figures of the second function cut off its values if the square of the range is below two (`C76_plot_quadratic`).
* **C77** fails for `spiral.py`: `--viz_freq` changes what is learned (`C77_figures_matter`); a batch size above the number of samples stops with a `NameError` (`C77_no_batches`); so do negative `--niters` with long range validation
  (`C77_no_epochs`); the saved norm penalties are the weighted losses (`C77_saved`).
* **C78** fails for the interpreter: `path_to_python` only defines an alias, which a shell that is not interactive ignores, so always the `python` of the search path runs (`C78_interpreter`); a path with a space starts nothing at all
  (`C78_path_with_space`).  Values with spaces are split (`C78_value_with_space`), empty values vanish (`C78_empty_value`), double quotes in a value cut off the rest of the line with all later options and the log file (`C78_double_quotes`);
  none of this is reported, since the exit status is not looked at.
* **C83** fails in four ways.  The parser of the spiral experiments accepts the models `universal`, `dampened_updown`, `2nd_order` and `general_updown`, but `spiral.py` does not: every job ends with a usage error
  (`C83_spiral_rejected`).  `simple_functional_mapping_example.py` accepts `universal`, but the class it asks for does not exist (`C83_universal`).  The parser of the weighting experiments has no shooting model, which
  `sweep_parameters` needs (`C83_weighting`).  The scripts that compare modes run combinations of earlier sweeps again (`C83_rnn_runs_more`, because of C26).

* **C84** fails in RNN mode and in the particle-free modes, which `spiral.py` offers together with `--adjoint`.  The adjoint method treats the parameters kept by the integrand as constants: in RNN mode no loss of
  the predictions has any effect on particles and costates (`C84_no_signal`, `C84_rnn_wrong`), in the particle-free modes the trained parameters belong to the block and not to the integrated function and get no gradient from the
  predictions (`C84_direct_wrong`).  Only the norm penalty trains them, without any message.
* **C86** quantities are left out by the beginning of the part of their names before the first dot, so a block or object with a name beginning with `t` or `energy` loses all of its quantities (`C86_names_lost`); an
  exception while drawing or saving leaves the settings for saving in place (`C86_settings_lost`); with a model without `q2` (the choice `simple` of `spiral.py`) every figure is a `KeyError` (`C86_no_second_state`); from iteration
  10000 on the alphabetical order of the files is not the order of the iterations (`C86_iterations_order_lost`).
* **C87** from a hundred thousand times on the animation is out of order (`C87_order_lost`); images of an earlier, longer run with the same prefix become part of it (`C87_leftover`); `max_display` figures are one more
  (`C87_shown`); the call in `spiral.py` names the block `simple`: for models without `q2` and without particles it is an `IndexError` (`C87_not_recorded`).
* **C88** with one layer or one hidden unit (`--nr_of_layers 1`, `--inflation_factor 1`) the pictures are a `TypeError`, and the program ends before its results are saved (`C88_one`).
* **C97** an exception during a recording leaves the hook registered (there is no `try`): every later recording has each evaluation once more per failed recording (`C97_repeated`), and training is written to
  the last dictionary (`C97_goes_on`). With `--shooting_model simple`, which the command line of `cc.py` accepts, the recording after the first epoch always fails (`C97_cc_simple_fails`): `KeyError`, the class
  has no layer `l2`.
* **C98** with hand-written formulas the bias has shape `[1, d]`, and the tensorboard hook raises at every evaluation it should log (`C98_analytic_fails`); so it does with one feature
  (`C98_one_feature_fails`), and without custom data at every evaluation (`C98_no_data`).
* **C103** fails for `simple_functional_mapping_example.py`: the flag `--adjoint` is accepted and never looked at (`C103_adjoint_ignored`); the neural ODE it compares with is integrated with step size 0.5 whatever `--stepsize` says
  (`C103_neural_ode_step`), and with tighter tolerances than the shooting block (`C103_mapping_partial`).
* **C105** fails for one particle: `q1.squeeze()` has no dimension left, the loop over it is a `TypeError`, and if figures are saved the plotting settings are not restored (`C105_one_particle`); and for the quadratic
  function with a range below the square root of two, where the sample at zero is cut off (`C105_outside`).
* **C109** "how many times the model perfectly fit to the data" counts all runs with fewer than one wrong test sample in hundred (`C109_perfect`), for 3000 samples up to 29 wrong ones (`C109_not_perfect`); the curve
  labelled "Nuc." is the largest singular value (`C109_nuc`); with repeated times, which every Runge-Kutta step records, the drawn path depends on the sorting algorithm (`C109_repeated_times`); the loss
  curves need 300 epochs and leave out the first one and all from the 301st on (`C109_curves`, `C109_curves_hidden`); a last batch of one sequence cannot be shown (`C109_not_shown`); the decision boundary is upside down (`C109_boundary`).
* **C78** `call_python_script` splits `bytes` with a `str`: `TypeError` after every script (`C78_call_python_raises`).

## Partial properties

The full statements stay in `properties.jsonl`; status `partial` in `MANIFEST.json` means that the statement as written is
false of the code (a theorem above shows it) and that the part which holds is proved: C08, C15, C26, C28, C30, C34, C42, C43, C65, C70, C71, C72, C76, C77, C78, C83, C84, C86, C87, C88, C95, C97, C98, C103, C105, C109.

## Seeded bugs

`seeded/LOG.jsonl` has one line per edited definition: the edit, the property it breaks, the theorems that no longer
hold, and which theorems were added or tightened because of it.

How the lines differ from the raw results:

* `claim_first_recorded`: the property named when the edit was made, where `claim_broken` was changed after the result was known.  All 35 changes from one property to another were read again; in one of them (DC10) the change had hidden a
  theorem that was too weak, which is now `C49_dimension_rejected`.  The changes of RC2-RC17 only add the property to a description.
* `theorems_excluded`: theorems reported as failed that do not depend on the edited file (the file is not among their imports), so that the edit cannot be the reason; builds were run under load.  For EV21 they were chosen by hand.
* A `comment` starting with "No result": the edited model did not compile, or the build stopped before a theorem could be judged.  These lines count neither way.
* An entry with no failed theorem and a `theorems_tightened` is an edit that was not noticed at first.
* Some edits repair a defect of the code; there the theorem that states the defect fails.
