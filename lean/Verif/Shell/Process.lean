import Verif.Shell.Props

/-!
# Programs started without a shell (`command_line_execution_tools.py:104-124, 142-149`)
-/

namespace Verif.Shell
open Verif Verif.Cli

/-- `execute_command(command, arguments_as_list, verbose)` (`command_line_execution_tools.py:111-124`): the list given to `subprocess.call`.  The exit status is not used.  What is printed is no part
of the model; that the program may not exist (then `subprocess.call` raises) is not either. -/
def executeCommand (command : Str) (args : List Str) : List Str :=
  args.foldl (fun l el => l ++ [el]) [command]

/-- A Python value of type `bytes` or `str`. -/
inductive Text
  | bytes (b : List UInt8)
  | str (s : Str)

/-- `x.split('\n')`: a text is cut; a separator of type `str` does not fit to `bytes` (`TypeError`). -/
def splitLines (cut : Str → List Str) : Text → Py (List Str)
  | .bytes _ => .error .typeError
  | .str s => .ok (cut s)

/-- `call_python_script(cmd)` (`command_line_execution_tools.py:142-149`): the line given to a shell, and the lines printed.  `output` is what the program writes; without `text=True` the pipe
gives `bytes` (line 145). -/
def callPythonScript (cut : Str → List Str) (cmd : Str) (output : Str → List UInt8) : Str × Py (List Str) :=
  let line := "python ".toList ++ cmd
  (line, do
    let result ← splitLines cut (.bytes (output line))
    .ok (result.filter fun lin => !("#".toList.isPrefixOf lin)))

/-- C78: a command executed through `execute_command` gets exactly its arguments, whatever characters they contain: spaces, quotes, semicolons, empty texts. -/
theorem C78_execute (command : Str) (args : List Str) : executeCommand command args = command :: args := by
  have key : ∀ (args l : List Str), args.foldl (fun l el => l ++ [el]) l = l ++ args := by
    intro args
    induction args with
    | nil => intro l; exact (List.append_nil l).symm
    | cons a args ih => intro l; rw [List.foldl_cons, ih, List.append_assoc]; rfl
  exact key args [command]

example : executeCommand "ls".toList ["a b".toList, [], "\"; x".toList] = ["ls".toList, "a b".toList, [], "\"; x".toList] := C78_execute _ _

/-- C78: `call_python_script` never prints the output of a script: it starts the script and then raises `TypeError`, whatever the script writes. -/
theorem C78_call_python_raises (cut : Str → List Str) (cmd : Str) (output : Str → List UInt8) :
    callPythonScript cut cmd output = ("python ".toList ++ cmd, .error .typeError) := rfl

end Verif.Shell
