import Verif.Options.Argparse
import Verif.Sweep.Model
import Verif.Shell.Model

/-!
# The options of the demo programs and what the experiment scripts ask for

`experiment_utils.py:7-62`, `demos/neurips20/*.py`.
-/

namespace Verif.Options
open Verif Verif.Cli Verif.Shell

/-! ## Parsers -/

/-- `setup_cmdline_parsing` of `demos/neurips20/spiral.py:36-111`. -/
def spiralParser : Parser :=
  [⟨"method".toList, .str, some ["dopri5".toList, "adams".toList, "rk4".toList], .str "rk4".toList⟩,
   ⟨"stepsize".toList, .float, none, .float (0.05)⟩,
   ⟨"data_size".toList, .int, none, .int (200)⟩,
   ⟨"batch_time".toList, .int, none, .int (5)⟩,
   ⟨"batch_size".toList, .int, none, .int (100)⟩,
   ⟨"lr".toList, .float, none, .float (0.05)⟩,
   ⟨"niters".toList, .int, none, .int (2000)⟩,
   ⟨"batch_validation_size".toList, .int, none, .int (25)⟩,
   ⟨"seed".toList, .int, none, .int (-1)⟩,
   ⟨"optional_weight".toList, .float, none, .float (10.0)⟩,
   ⟨"linear".toList, .flag, none, .bool false⟩,
   ⟨"test_freq".toList, .int, none, .int (100)⟩,
   ⟨"viz_freq".toList, .int, none, .int (100)⟩,
   ⟨"validate_with_long_range".toList, .flag, none, .bool false⟩,
   ⟨"chunk_time".toList, .int, none, .int (5)⟩,
   ⟨"shooting_model".toList, .str, some ["updown_universal".toList, "simple".toList, "updown".toList, "periodic".toList], .str "updown_universal".toList⟩,
   ⟨"nr_of_particles".toList, .int, none, .int (25)⟩,
   ⟨"pw".toList, .float, none, .float (1.0)⟩,
   ⟨"sim_weight".toList, .float, none, .float (100.0)⟩,
   ⟨"norm_weight".toList, .float, none, .float (0.01)⟩,
   ⟨"sim_norm".toList, .str, some ["l1".toList, "l2".toList], .str "l2".toList⟩,
   ⟨"nonlinearity".toList, .str, some ["identity".toList, "relu".toList, "tanh".toList, "sigmoid".toList], .str "relu".toList⟩,
   ⟨"inflation_factor".toList, .int, none, .int (5)⟩,
   ⟨"use_particle_rnn_mode".toList, .flag, none, .bool false⟩,
   ⟨"use_particle_free_rnn_mode".toList, .flag, none, .bool false⟩,
   ⟨"use_particle_free_time_dependent_mode".toList, .flag, none, .bool false⟩,
   ⟨"nr_of_particle_free_time_dependent_steps".toList, .int, none, .int (10)⟩,
   ⟨"do_not_use_parameter_penalty_energy".toList, .flag, none, .bool false⟩,
   ⟨"optimize_over_data_initial_conditions".toList, .flag, none, .bool false⟩,
   ⟨"optimize_over_data_initial_conditions_type".toList, .str, some ["direct".toList, "linear".toList, "mini_nn".toList], .str "linear".toList⟩,
   ⟨"disable_distance_based_sampling".toList, .flag, none, .bool false⟩,
   ⟨"custom_parameter_freezing".toList, .flag, none, .bool false⟩,
   ⟨"unfreeze_parameters_at_iter".toList, .int, none, .int (-1)⟩,
   ⟨"custom_parameter_initialization".toList, .flag, none, .bool false⟩,
   ⟨"viz".toList, .flag, none, .bool false⟩,
   ⟨"gpu".toList, .int, none, .int (0)⟩,
   ⟨"adjoint".toList, .flag, none, .bool false⟩,
   ⟨"checkpointing_time_interval".toList, .float, none, .float (0.0)⟩,
   ⟨"nr_of_checkpoints".toList, .int, none, .int (0)⟩,
   ⟨"do_not_use_analytic_solution".toList, .flag, none, .bool false⟩,
   ⟨"create_animation".toList, .flag, none, .bool false⟩,
   ⟨"save_figures".toList, .flag, none, .bool false⟩,
   ⟨"output_directory".toList, .str, none, .str "results_spiral".toList⟩,
   ⟨"output_basename".toList, .str, none, .str "spiral".toList⟩]

/-- `setup_cmdline_parsing` of `demos/neurips20/simple_functional_mapping_example.py:55-120`. -/
def mappingParser : Parser :=
  [⟨"method".toList, .str, some ["dopri5".toList, "adams".toList, "rk4".toList], .str "rk4".toList⟩,
   ⟨"batch_size".toList, .int, none, .int (50)⟩,
   ⟨"niters".toList, .int, none, .int (250)⟩,
   ⟨"seed".toList, .int, none, .int (1234)⟩,
   ⟨"adjoint".toList, .flag, none, .bool false⟩,
   ⟨"gpu".toList, .int, none, .int (0)⟩,
   ⟨"stepsize".toList, .float, none, .float (0.1)⟩,
   ⟨"lr".toList, .float, none, .float (0.01)⟩,
   ⟨"shooting_model".toList, .str, some ["updown_universal".toList, "universal".toList, "periodic".toList, "dampened_updown".toList, "simple".toList, "2nd_order".toList, "updown".toList, "general_updown".toList], .str "updown".toList⟩,
   ⟨"nonlinearity".toList, .str, some ["identity".toList, "relu".toList, "tanh".toList, "sigmoid".toList, "softmax".toList], .str "relu".toList⟩,
   ⟨"pw".toList, .float, none, .float (1.0)⟩,
   ⟨"sim_weight".toList, .float, none, .float (100.0)⟩,
   ⟨"norm_weight".toList, .float, none, .float (1.0)⟩,
   ⟨"nr_of_particles".toList, .int, none, .int (20)⟩,
   ⟨"inflation_factor".toList, .int, none, .int (16)⟩,
   ⟨"use_particle_rnn_mode".toList, .flag, none, .bool false⟩,
   ⟨"use_particle_free_rnn_mode".toList, .flag, none, .bool false⟩,
   ⟨"use_particle_free_time_dependent_mode".toList, .flag, none, .bool false⟩,
   ⟨"nr_of_particle_free_time_dependent_steps".toList, .int, none, .int (10)⟩,
   ⟨"do_not_use_parameter_penalty_energy".toList, .flag, none, .bool false⟩,
   ⟨"do_not_plot_temporal_data".toList, .flag, none, .bool false⟩,
   ⟨"optional_weight".toList, .float, none, .float (10.0)⟩,
   ⟨"xrange".toList, .float, none, .float (1.5)⟩,
   ⟨"clamp_range".toList, .flag, none, .bool false⟩,
   ⟨"fcn".toList, .str, some ["cubic".toList, "quadratic".toList], .str "cubic".toList⟩,
   ⟨"optimize_over_data_initial_conditions".toList, .flag, none, .bool false⟩,
   ⟨"optimize_over_data_initial_conditions_type".toList, .str, some ["direct".toList, "linear".toList, "mini_nn".toList], .str "linear".toList⟩,
   ⟨"custom_parameter_freezing".toList, .flag, none, .bool false⟩,
   ⟨"unfreeze_parameters_at_iter".toList, .int, none, .int (-1)⟩,
   ⟨"custom_parameter_initialization".toList, .flag, none, .bool false⟩,
   ⟨"nr_of_layers".toList, .int, none, .int (30)⟩,
   ⟨"use_updown".toList, .flag, none, .bool false⟩,
   ⟨"use_double_resnet".toList, .flag, none, .bool false⟩,
   ⟨"use_rnn".toList, .flag, none, .bool false⟩,
   ⟨"use_double_resnet_rnn".toList, .flag, none, .bool false⟩,
   ⟨"use_simple_resnet".toList, .flag, none, .bool false⟩,
   ⟨"use_neural_ode".toList, .flag, none, .bool false⟩,
   ⟨"test_freq".toList, .int, none, .int (10)⟩,
   ⟨"viz_freq".toList, .int, none, .int (25)⟩,
   ⟨"viz".toList, .flag, none, .bool false⟩,
   ⟨"verbose".toList, .flag, none, .bool false⟩,
   ⟨"save_figures".toList, .flag, none, .bool false⟩,
   ⟨"output_directory".toList, .str, none, .str "results_simple_functional_mapping".toList⟩,
   ⟨"output_basename".toList, .str, none, .str "sfm".toList⟩]

/-- `setup_cmdline_parsing` of `demos/neurips20/cc.py:165-260`. -/
def circlesParser : Parser :=
  [⟨"method".toList, .str, some ["dopri5".toList, "adams".toList, "rk4".toList], .str "rk4".toList⟩,
   ⟨"shooting_dim".toList, .int, none, .int (20)⟩,
   ⟨"cls_weight_decay".toList, .float, none, .float (0.0001)⟩,
   ⟨"evaluate_ahead".toList, .int, none, .int (10)⟩,
   ⟨"stepsize".toList, .float, none, .float (0.05)⟩,
   ⟨"niters".toList, .int, none, .int (500)⟩,
   ⟨"lr".toList, .float, none, .float (0.01)⟩,
   ⟨"seed".toList, .int, none, .int (-1)⟩,
   ⟨"batch_size".toList, .int, none, .int (25)⟩,
   ⟨"shooting_model".toList, .str, some ["simple".toList, "updown".toList, "updown_universal".toList], .str "updown".toList⟩,
   ⟨"nr_of_particles".toList, .int, none, .int (25)⟩,
   ⟨"pw".toList, .float, none, .float (1.0)⟩,
   ⟨"sim_weight".toList, .float, none, .float (100.0)⟩,
   ⟨"norm_weight".toList, .float, none, .float (0.01)⟩,
   ⟨"nonlinearity".toList, .str, some ["identity".toList, "relu".toList, "tanh".toList, "sigmoid".toList], .str "relu".toList⟩,
   ⟨"inflation_factor".toList, .int, none, .int (5)⟩,
   ⟨"use_particle_rnn_mode".toList, .flag, none, .bool false⟩,
   ⟨"use_particle_free_rnn_mode".toList, .flag, none, .bool false⟩,
   ⟨"optimize_over_data_initial_conditions".toList, .flag, none, .bool false⟩,
   ⟨"optimize_over_data_initial_conditions_type".toList, .str, some ["direct".toList, "linear".toList, "mini_nn".toList], .str "linear".toList⟩,
   ⟨"verbose".toList, .flag, none, .bool false⟩,
   ⟨"save_model".toList, .str, none, .str "model".toList⟩,
   ⟨"gpu".toList, .int, none, .int (0)⟩]

/-- `setup_cmdline_parsing` of `demos/neurips20/rot.py:37-131`. -/
def rotatedParser : Parser :=
  [⟨"method".toList, .str, some ["dopri5".toList, "adams".toList, "rk4".toList], .str "rk4".toList⟩,
   ⟨"n_skip".toList, .int, none, .int (4)⟩,
   ⟨"i_eval".toList, .int, none, .int (4)⟩,
   ⟨"shooting_dim".toList, .int, none, .int (20)⟩,
   ⟨"stepsize".toList, .float, none, .float (0.05)⟩,
   ⟨"niters".toList, .int, none, .int (500)⟩,
   ⟨"lr".toList, .float, none, .float (0.01)⟩,
   ⟨"seed".toList, .int, none, .int (-1)⟩,
   ⟨"batch_size".toList, .int, none, .int (25)⟩,
   ⟨"shooting_model".toList, .str, some ["simple".toList, "updown".toList, "updown_universal".toList], .str "updown".toList⟩,
   ⟨"nr_of_particles".toList, .int, none, .int (25)⟩,
   ⟨"pw".toList, .float, none, .float (1.0)⟩,
   ⟨"sim_weight".toList, .float, none, .float (100.0)⟩,
   ⟨"norm_weight".toList, .float, none, .float (0.01)⟩,
   ⟨"nonlinearity".toList, .str, some ["identity".toList, "relu".toList, "tanh".toList, "sigmoid".toList], .str "relu".toList⟩,
   ⟨"inflation_factor".toList, .int, none, .int (5)⟩,
   ⟨"use_particle_rnn_mode".toList, .flag, none, .bool false⟩,
   ⟨"use_particle_free_rnn_mode".toList, .flag, none, .bool false⟩,
   ⟨"optimize_over_data_initial_conditions".toList, .flag, none, .bool false⟩,
   ⟨"optimize_over_data_initial_conditions_type".toList, .str, some ["direct".toList, "linear".toList, "mini_nn".toList], .str "linear".toList⟩,
   ⟨"verbose".toList, .flag, none, .bool false⟩,
   ⟨"save".toList, .flag, none, .bool false⟩,
   ⟨"gpu".toList, .int, none, .int (0)⟩]

/-- `setup_cmdline_parsing` of `demos/neurips20/balls.py:40-131`. -/
def ballsParser : Parser :=
  [⟨"method".toList, .str, some ["dopri5".toList, "adams".toList, "rk4".toList], .str "rk4".toList⟩,
   ⟨"shooting_dim".toList, .int, none, .int (20)⟩,
   ⟨"evaluate_ahead".toList, .int, none, .int (10)⟩,
   ⟨"stepsize".toList, .float, none, .float (0.05)⟩,
   ⟨"niters".toList, .int, none, .int (500)⟩,
   ⟨"lr".toList, .float, none, .float (0.01)⟩,
   ⟨"seed".toList, .int, none, .int (-1)⟩,
   ⟨"batch_size".toList, .int, none, .int (25)⟩,
   ⟨"shooting_model".toList, .str, some ["simple".toList, "updown".toList, "updown_universal".toList], .str "updown".toList⟩,
   ⟨"nr_of_particles".toList, .int, none, .int (25)⟩,
   ⟨"pw".toList, .float, none, .float (1.0)⟩,
   ⟨"sim_weight".toList, .float, none, .float (100.0)⟩,
   ⟨"norm_weight".toList, .float, none, .float (0.01)⟩,
   ⟨"nonlinearity".toList, .str, some ["identity".toList, "relu".toList, "tanh".toList, "sigmoid".toList], .str "relu".toList⟩,
   ⟨"inflation_factor".toList, .int, none, .int (5)⟩,
   ⟨"use_particle_rnn_mode".toList, .flag, none, .bool false⟩,
   ⟨"use_particle_free_rnn_mode".toList, .flag, none, .bool false⟩,
   ⟨"optimize_over_data_initial_conditions".toList, .flag, none, .bool false⟩,
   ⟨"optimize_over_data_initial_conditions_type".toList, .str, some ["direct".toList, "linear".toList, "mini_nn".toList], .str "linear".toList⟩,
   ⟨"verbose".toList, .flag, none, .bool false⟩,
   ⟨"save_to".toList, .str, none, .str "runs/".toList⟩,
   ⟨"gpu".toList, .int, none, .int (0)⟩]

/-- The first parser of `setup_cmdline_parsing` (`experiment_utils.py:16-28`); `path` is the output of `which python`. -/
def mappingDriver (path : Str) : Parser :=
  [⟨"gpu".toList, .int, none, .int (0)⟩,
   ⟨"path_to_python".toList, .str, none, .str path⟩,
   ⟨"nr_of_seeds".toList, .int, none, .int (1)⟩,
   ⟨"starting_seed_id".toList, .int, none, .int (0)⟩,
   ⟨"fcn".toList, .str, some ["cubic".toList, "quadratic".toList], .str "cubic".toList⟩,
   ⟨"shooting_model".toList, .str, some ["updown_universal".toList, "universal".toList, "periodic".toList, "dampened_updown".toList, "simple".toList, "2nd_order".toList, "updown".toList, "general_updown".toList], .str "updown_universal".toList⟩,
   ⟨"output_base_directory".toList, .str, none, .str "sfm_results".toList⟩,
   ⟨"force_recompute".toList, .flag, none, .bool false⟩]

/-- The second parser of `setup_cmdline_parsing` (`experiment_utils.py:30-47`). -/
def spiralDriver (path : Str) : Parser :=
  [⟨"gpu".toList, .int, none, .int (0)⟩,
   ⟨"path_to_python".toList, .str, none, .str path⟩,
   ⟨"nr_of_seeds".toList, .int, none, .int (1)⟩,
   ⟨"starting_seed_id".toList, .int, none, .int (0)⟩,
   ⟨"shooting_model".toList, .str, some ["updown_universal".toList, "universal".toList, "periodic".toList, "dampened_updown".toList, "simple".toList, "2nd_order".toList, "updown".toList, "general_updown".toList], .str "updown_universal".toList⟩,
   ⟨"output_base_directory".toList, .str, none, .str "sfm_results".toList⟩,
   ⟨"force_recompute".toList, .flag, none, .bool false⟩]

/-- The third parser of `setup_cmdline_parsing` (`experiment_utils.py:49-62`). -/
def weightingDriver (path : Str) : Parser :=
  [⟨"gpu".toList, .int, none, .int (0)⟩,
   ⟨"path_to_python".toList, .str, none, .str path⟩,
   ⟨"nr_of_seeds".toList, .int, none, .int (1)⟩,
   ⟨"starting_seed_id".toList, .int, none, .int (0)⟩,
   ⟨"fcn".toList, .str, some ["cubic".toList, "quadratic".toList], .str "cubic".toList⟩,
   ⟨"sweep_updown".toList, .flag, none, .bool false⟩,
   ⟨"sweep_updown_universal".toList, .flag, none, .bool false⟩,
   ⟨"output_base_directory".toList, .str, none, .str "sfm_results".toList⟩,
   ⟨"force_recompute".toList, .flag, none, .bool false⟩]

/-- `setup_cmdline_parsing(cmdline_type)` builds one of three parsers (`experiment_utils.py:7-62`). -/
def driverParser (type : Str) (path : Str) : Py Parser :=
  if type ∉ ["simple_functional_mapping".toList, "simple_functional_weighting".toList, "spiral".toList] then .error .valueError
  else if type = "simple_functional_mapping".toList then .ok (mappingDriver path)
  else if type = "spiral".toList then .ok (spiralDriver path)
  else .ok (weightingDriver path)

/-- `current_shooting_model` (`experiment_utils.py:101-106`) for the result of a parser. -/
def modelOf (args : Namespace) (template d : PDict Str Val) : Py Str :=
  match PDict.get? d "shooting_model".toList with
  | some v => .ok v.str
  | none => match PDict.get? template "shooting_model".toList with
    | some v => .ok v.str
    | none => match PDict.get? args "shooting_model".toList with
      | some (.str s) => .ok s
      | _ => .error .attributeError

/-! ## Models -/

/-- The classes of `shooting_models.py` (lines 13, 130, 198, 410, 647, 926, 1126, 1268, 1341, 1417, 1480, 1650, 1839, 2069). -/
def classes : List Str :=
  ["AutoShootingIntegrandModelDampenedUpDown".toList, "AutoShootingIntegrandModelSecondOrder".toList, "AutoShootingIntegrandModelUpDown".toList,
   "AutoShootingIntegrandModelUpDownUniversal".toList, "AutoShootingIntegrandModelGeneralUpDown".toList, "DEBUGAutoShootingIntegrandModelSimple".toList,
   "AutoShootingIntegrandModelSimple".toList, "AutoShootingIntegrandModelSimpleConv2D".toList, "AutoShootingIntegrandModelConv2DBatch".toList,
   "AutoShootingOptimalTransportSimple".toList, "AutoShootingIntegrandModelUpdownDampenedQ2".toList, "AutoShootingIntegrandModelUpdownSymmetrized".toList,
   "AutoShootingIntegrandModelUpdownPeriodic".toList, "AutoShootingIntegrandModelUpDownConv2D".toList]

/-- `shooting_models.name` -/
def classNamed (name : Str) : Py Str := if name ∈ classes then .ok name else .error .attributeError

/-- A chain of `if model == …: smodel = shooting_models.…`; afterwards `smodel` is used. -/
def choose (chain : List (Str × Str)) (model : Str) : Py Str :=
  match PDict.get? chain model with
  | some name => classNamed name
  | none => .error .unboundLocal

/-- `setup_shooting_block` of `spiral.py:136-173`; `smodel` is used in line 184. -/
def spiralModel : Str → Py Str := choose
  [("updown".toList, "AutoShootingIntegrandModelUpDown".toList), ("updown_universal".toList, "AutoShootingIntegrandModelUpDownUniversal".toList),
   ("periodic".toList, "AutoShootingIntegrandModelUpdownPeriodic".toList), ("simple".toList, "AutoShootingIntegrandModelSimple".toList)]

/-- The main program of `simple_functional_mapping_example.py:466-481` -/
def mappingModel : Str → Py Str := choose
  [("simple".toList, "AutoShootingIntegrandModelSimple".toList), ("2nd_order".toList, "AutoShootingIntegrandModelSecondOrder".toList),
   ("updown".toList, "AutoShootingIntegrandModelUpDown".toList), ("updown_universal".toList, "AutoShootingIntegrandModelUpDownUniversal".toList),
   ("general_updown".toList, "AutoShootingIntegrandModelGeneralUpDown".toList), ("periodic".toList, "AutoShootingIntegrandModelUpdownPeriodic".toList),
   ("dampened_updown".toList, "AutoShootingIntegrandModelDampenedUpDown".toList), ("universal".toList, "AutoShootingIntegrandModelUniversal".toList)]

/-- `cc.py:83-131` and `balls.py:172-220` -/
def circlesModel : Str → Py Str := choose
  [("updown".toList, "AutoShootingIntegrandModelUpDown".toList), ("updown_universal".toList, "AutoShootingIntegrandModelUpDownUniversal".toList),
   ("periodic".toList, "AutoShootingIntegrandModelUpdownPeriodic".toList), ("simple".toList, "AutoShootingIntegrandModelSimple".toList)]

/-- `rot.py:172-208` -/
def rotatedModel : Str → Py Str := choose
  [("updown".toList, "AutoShootingIntegrandModelUpDown".toList), ("updown_universal".toList, "AutoShootingIntegrandModelUpDownUniversal".toList),
   ("simple".toList, "AutoShootingIntegrandModelSimple".toList)]

/-! ## Experiment scripts -/

/-- A number in a dictionary of options. -/
def num (n : Nat) : Val := .text (decimal n)

/-- A call of `sweep_parameters(args, run_args_to_sweep, run_args_template, python_script, output_dir_prefix, …)` (`experiment_utils.py:85`). -/
structure SweepCall where
  template : PDict Str Val
  pars : PDict String (List Val)
  script : Str
  dirPrefix : Str

/-- The options of the spiral experiments that all templates have (`run_experiments_spiral.py:10-22`, `run_experiments_spiral_rnn.py:12-57`). -/
def spiralCommon (model : Str) : PDict Str Val :=
  [("shooting_model".toList, .text model), ("niters".toList, num 1500), ("optional_weight".toList, num 10), ("custom_parameter_freezing".toList, .none),
   ("unfreeze_parameters_at_iter".toList, num 50), ("save_figures".toList, .none), ("viz_freq".toList, num 3000), ("custom_parameter_initialization".toList, .none),
   ("validate_with_long_range".toList, .none), ("optimize_over_data_initial_conditions".toList, .none)]

/-- The options of the functional mapping experiments that all templates have (`run_long_iteration_experiments_simple_functional_mapping.py:9-21`, `…_rnn.py:10-52`). -/
def mappingCommon (model fcn : Str) : PDict Str Val :=
  [("shooting_model".toList, .text model), ("niters".toList, num 500), ("optional_weight".toList, num 10), ("custom_parameter_freezing".toList, .none),
   ("unfreeze_parameters_at_iter".toList, num 50), ("save_figures".toList, .none), ("viz_freq".toList, num 600), ("fcn".toList, .text fcn),
   ("do_not_plot_temporal_data".toList, .none), ("optimize_over_data_initial_conditions".toList, .none)]

/-- The swept options. -/
def sweepOver (particles inflation : List Nat) : PDict String (List Val) :=
  [("nr_of_particles", particles.map num), ("inflation_factor", inflation.map num)]

/-- `run_experiments_spiral.py:10-32` -/
def spiralCalls (model : Str) : List SweepCall :=
  [⟨spiralCommon model, sweepOver [15, 25, 50] [16, 32, 64, 128], "spiral.py".toList, "spiral_particles_".toList⟩]

/-- `run_experiments_spiral_rnn.py:12-90` -/
def spiralRnnCalls (model : Str) : List SweepCall :=
  [⟨("use_particle_free_rnn_mode".toList, .none) :: spiralCommon model, sweepOver [2] [16, 32, 64, 128], "spiral.py".toList, "spiral_particle_free_rnn_".toList⟩,
   ⟨("use_particle_free_time_dependent_mode".toList, .none) :: ("nr_of_particle_free_time_dependent_steps".toList, num 5) :: spiralCommon model, sweepOver [2] [16, 32, 64, 128], "spiral.py".toList,
     "spiral_particle_free_time_dependent_rnn_".toList⟩,
   ⟨("use_particle_rnn_mode".toList, .none) :: spiralCommon model, sweepOver [15, 25, 50] [16, 32, 64, 128], "spiral.py".toList, "spiral_particle_rnn_".toList⟩]

/-- `run_long_iteration_experiments_simple_functional_mapping.py:9-32` -/
def mappingCalls (model fcn : Str) : List SweepCall :=
  [⟨mappingCommon model fcn, sweepOver [2, 5, 15, 25] [4, 8, 16, 32, 64, 128], "simple_functional_mapping_example.py".toList, "long_iteration_particles_".toList⟩]

/-- `run_long_iteration_experiments_simple_functional_mapping_rnn.py:10-86` -/
def mappingRnnCalls (model fcn : Str) : List SweepCall :=
  [⟨("use_particle_free_rnn_mode".toList, .none) :: mappingCommon model fcn, sweepOver [2] [4, 8, 16, 32, 64, 128], "simple_functional_mapping_example.py".toList,
     "long_iteration_particle_free_rnn_".toList⟩,
   ⟨("use_particle_free_time_dependent_mode".toList, .none) :: ("nr_of_particle_free_time_dependent_steps".toList, num 5) :: mappingCommon model fcn, sweepOver [2] [4, 8, 16, 32, 64, 128],
     "simple_functional_mapping_example.py".toList, "long_iteration_particle_free_time_dependent_rnn_".toList⟩,
   ⟨("use_particle_rnn_mode".toList, .none) :: mappingCommon model fcn, sweepOver [2, 5, 15, 25] [4, 8, 16, 32, 64, 128], "simple_functional_mapping_example.py".toList,
     "long_iteration_particle_rnn_".toList⟩]

/-- The combinations that the calls of one process go through (`experiment_utils.py:86`); the two objects of `recursively_sweep_parameters` live on between the calls. -/
def combinations : List SweepCall → Sweep.Store Val → List (SweepCall × List (PDict Str Val))
  | [], _ => []
  | c :: cs, s =>
    let s := Sweep.sweep c.pars s
    (c, s.swept.map fun d => d.map fun p => (p.1.toList, p.2)) :: combinations cs s

/-- The settings of a call (`experiment_utils.py:92`). -/
def callSettings (a : Settings) (c : SweepCall) : Settings := { a with outputBase := c.dirPrefix ++ a.outputBase }

/-- The lines given to `os.system` by an experiment script, if nothing is skipped (`experiment_utils.py:98-142`). -/
def commands (a : Settings) (path : Str) (gpu : Int) (calls : List SweepCall) : List Str :=
  (combinations calls Sweep.fresh).flatMap fun p =>
    (jobs (callSettings a p.1) p.2).map fun j => jobCommand (callSettings a p.1) p.1.script path gpu p.1.template j.1 j.2

end Verif.Options
