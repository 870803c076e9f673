import Verif.Cli.Model

/-!
# The command that is executed

`command_line_execution_tools.py:30-61, 126-140`, `experiment_utils.py:117-142`.

The functions build one string and give it to `os.system`.  Texts are lists of characters (`Str`), as in `Verif.Cli`.  The result of `os.system` is not used by the code
(`command_line_execution_tools.py:140`), so it is no part of the model.  `get_bash_precommand` formats the device with `{:d}`: it is an integer here.
-/

namespace Verif.Shell
open Verif Verif.Cli

/-- `'{:d}'.format(n)` -/
def decimalInt : Int → Str
  | .ofNat n => decimal n
  | .negSucc n => '-' :: decimal (n + 1)

/-- `get_bash_precommand(cuda_visible_devices, pre_command)` (`command_line_execution_tools.py:51-61`) -/
def bashPrecommand (cuda : Option Int) (pre : Option Str) : Str :=
  match cuda, pre with
  | some d, some p => p ++ " && CUDA_VISIBLE_DEVICES=".toList ++ decimalInt d
  | some d, none => "CUDA_VISIBLE_DEVICES=".toList ++ decimalInt d
  | none, some p => p ++ " && ".toList
  | none, none => []

/-- The string given to `os.system` by `execute_python_script_via_bash(python_script, arguments_as_list, pre_command, log_file)` (`command_line_execution_tools.py:126-140`) -/
def bashCommand (script : Str) (args : List Str) (pre log : Option Str) : Str :=
  let str := stringArgument (["python".toList] ++ [script] ++ args)
  match pre, log with
  | some p, some l => "bash -c \"".toList ++ p ++ " ".toList ++ str ++ " > >(tee ".toList ++ l ++ ") 2>&1\"".toList
  | some p, none => "bash -c \"".toList ++ p ++ " ".toList ++ str ++ "\"".toList
  | none, some l => "bash -c \"".toList ++ str ++ " > >(tee ".toList ++ l ++ ") 2>&1\"".toList
  | none, none => "bash -c \"".toList ++ str ++ "\"".toList

/-- The string given to `os.system` by `run_command_with_args(python_script, run_args, path_to_python, cuda_visible_devices, log_file)` (`command_line_execution_tools.py:30-39`) -/
def runCommand (script : Str) (runArgs : PDict Str Val) (path : Str) (cuda : Option Int) (log : Option Str) : Str :=
  bashCommand script (makeArgList runArgs) (some (bashPrecommand cuda (some ("alias python=\"".toList ++ path ++ "\"".toList)))) log

/-- The command of one job of a sweep (`experiment_utils.py:117-142`): its arguments and the log file in its output directory. -/
def jobCommand (a : Settings) (script path : Str) (gpu : Int) (template : PDict Str Val) (seed : Nat) (d : PDict Str Val) : Str :=
  runCommand script (runArgs a template seed d) path (some gpu) (some (outputDirectory a (jobName a template seed d) ++ "/runlog.log".toList))

end Verif.Shell
