import Verif.Base.Py
import Verif.Base.PDict

/-!
# Command lines and experiment bookkeeping

`command_line_execution_tools.py:42-109`, `experiment_utils.py:64-142`.

A Python `str` is a list of characters (`Str`).  `str(v)` of a number is its text: values are `Val`s that already carry the text.
-/

namespace Verif.Cli
open Verif

abbrev Str := List Char

/-- A value of an argument dictionary: `None`, `True`/`False`, or anything else, given by its text. -/
inductive Val
  | none
  | bool (b : Bool)
  | text (s : Str)
deriving DecidableEq, Repr

/-- `str(v)` / `'{}'.format(v)` -/
def Val.str : Val → Str
  | .none => "None".toList
  | .bool true => "True".toList
  | .bool false => "False".toList
  | .text s => s

/-! ## Strings -/

/-- The two arguments contributed by one entry (`command_line_execution_tools.py:45-47`). -/
def argOf (p : Str × Val) : List Str :=
  match p.2 with
  | .none => ["--".toList ++ p.1]
  | v => ["--".toList ++ p.1, v.str]

/-- `_make_arg_list(args)` (`command_line_execution_tools.py:42-49`) -/
def makeArgList (args : PDict Str Val) : List Str :=
  args.foldl (fun acc p => acc ++ argOf p) []

/-- One round of the loop of `create_kv_string`; the flag is `is_first` (`command_line_execution_tools.py:73-78`). -/
def kvStep (st : Str × Bool) (p : Str × Val) : Str × Bool :=
  if st.2 then (st.1 ++ (p.1 ++ "=".toList ++ p.2.str), false)
  else (st.1 ++ ("\\;".toList ++ p.1 ++ "=".toList ++ p.2.str), st.2)

/-- `create_kv_string(kvs)` (`command_line_execution_tools.py:70-80`) -/
def createKvString (kvs : PDict Str Val) : Str := (kvs.foldl kvStep ([], true)).1

/-- `s.split(';')`: the pieces between the semicolons, at least one -/
def splitSemi : Str → List Str
  | [] => [[]]
  | c :: s =>
    if c = ';' then [] :: splitSemi s
    else match splitSemi s with
      | [] => [[c]]
      | p :: ps => (c :: p) :: ps

/-- `_escape_semicolons(s)` (`command_line_execution_tools.py:82-90`) -/
def escapeSemicolons (s : Str) : Str :=
  match splitSemi s with
  | [] => s
  | [_] => s
  | p :: ps => ps.foldl (fun ret c => ret ++ ("\\;".toList ++ c)) p

/-- `add_to_config_string(cs, cs_to_add)` (`command_line_execution_tools.py:92-102`).  Calling `split` on `None` raises
`AttributeError`. -/
def addToConfigString (cs toAdd : Option Str) : Py (Option Str) :=
  match cs, toAdd with
  | none, none => .error .attributeError
  | some [], none => .error .attributeError
  | none, some a => .ok (some (escapeSemicolons a))
  | some [], some a => .ok (some (escapeSemicolons a))
  | some c, none => .ok (some c)
  | some c, some a => .ok (some (c ++ "\\;".toList ++ escapeSemicolons a))

/-- `get_string_argument_from_list(l)` (`command_line_execution_tools.py:104-109`) -/
def stringArgument (l : List Str) : Str := l.foldl (fun s el => (s ++ el) ++ " ".toList) []

/-! ## Experiment names -/

/-- One decimal digit. -/
def digit (d : Nat) : Char := Char.ofNat (48 + d)

/-- `'{:d}'.format(n)` for `n ≥ 0` -/
def decimal (n : Nat) : Str :=
  if n < 10 then [digit n] else decimal (n / 10) ++ [digit (n % 10)]

/-- `'{:02d}'.format(n)` for `n ≥ 0` -/
def decimal02 (n : Nat) : Str := if n < 10 then '0' :: decimal n else decimal n

/-- `create_experiment_name(basename, d)` (`experiment_utils.py:64-69`) -/
def experimentName (basename : Str) (d : PDict Str Val) : Str :=
  d.foldl (fun name p => name ++ ("_".toList ++ p.1 ++ "_".toList ++ p.2.str)) basename

/-- `merge_args(run_args_template, add_args)` (`experiment_utils.py:71-83`) -/
def mergeArgs (template add : PDict Str Val) : PDict Str Val :=
  add.foldl (fun m p =>
    match p.2 with
    | .bool true => m.set p.1 .none
    | .bool false => m
    | v => m.set p.1 v) template

/-! ## Running a sweep -/

/-- The command line settings used by `sweep_parameters` (`experiment_utils.py:85-118`).  Seeds are natural numbers here (the parser
allows negative ones).  `fcn = none` means the parser has no such option. -/
structure Settings where
  startingSeed : Nat
  nrOfSeeds : Nat
  shootingModel : Str
  fcn : Option Str
  outputBase : Str

/-- `current_shooting_model` (`experiment_utils.py:101-106`) -/
def currentModel (a : Settings) (template d : PDict Str Val) : Str :=
  match PDict.get? d "shooting_model".toList with
  | some v => v.str
  | none => match PDict.get? template "shooting_model".toList with
    | some v => v.str
    | none => a.shootingModel

/-- `current_fcn` (`experiment_utils.py:108-116`) -/
def currentFcn (a : Settings) (template d : PDict Str Val) : Str :=
  match PDict.get? d "fcn".toList with
  | some v => v.str
  | none => match PDict.get? template "fcn".toList with
    | some v => v.str
    | none => a.fcn.getD []

/-- `experiment_name` (`experiment_utils.py:118-119`) -/
def jobName (a : Settings) (template : PDict Str Val) (seed : Nat) (d : PDict Str Val) : Str :=
  experimentName ("run_".toList ++ decimal02 seed ++ "_".toList ++ currentFcn a template d ++ "_".toList ++ currentModel a template d) d

/-- `output_directory`: `os.path.join(output_base_directory, experiment_name)` (`experiment_utils.py:120`), for a base directory that is
non-empty and does not end in `/`. -/
def outputDirectory (a : Settings) (name : Str) : Str := a.outputBase ++ "/".toList ++ name

/-- `run_args` (`experiment_utils.py:126-129`) -/
def runArgs (a : Settings) (template : PDict Str Val) (seed : Nat) (d : PDict Str Val) : PDict Str Val :=
  ((mergeArgs template d).set "output_directory".toList
      (.text (outputDirectory a (jobName a template seed d)))).set "seed".toList (.text (decimal seed))

/-- The seeds (`experiment_utils.py:89-90`); `sidx + starting_seed_id` (`:118`) is the seed itself. -/
def seeds (a : Settings) : List Nat := (List.range a.nrOfSeeds).map (a.startingSeed + ·)

/-- The two nested loops (`experiment_utils.py:98-99`): all jobs, seed by seed. -/
def jobs (a : Settings) (swept : List (PDict Str Val)) : List (Nat × PDict Str Val) :=
  (seeds a).flatMap (fun s => swept.map (fun d => (s, d)))

/-- The state of the file system and what happened: `finished` are the output directories that contain a `.pt` file, `log` the
executed jobs in order, with the information whether the run left a `.pt` file. -/
structure World (J : Type) where
  finished : List Str
  log : List (J × Bool)

/-- One round of the loop (`experiment_utils.py:131-142`).  `ok` says whether the started script writes its result file (the exit status
is ignored by the code). Creating directories and the log file is not modelled. -/
def runOne {J : Type} (name : J → Str) (doNotRecompute : Bool) (ok : J → Bool) (w : World J) (j : J) : World J :=
  if w.finished.contains (name j) && doNotRecompute then w
  else ⟨if ok j then w.finished ++ [name j] else w.finished, w.log ++ [(j, ok j)]⟩

/-- All rounds. -/
def runAll {J : Type} (name : J → Str) (doNotRecompute : Bool) (ok : J → Bool) (w : World J) (js : List J) : World J :=
  js.foldl (runOne name doNotRecompute ok) w

/-- A history: sweeps over the same jobs, each one cut off (killed) after some number of rounds; each with its own successes.  A
run that is killed in the middle is a last round without success. -/
def history {J : Type} (name : J → Str) (js : List J) (w : World J) (attempts : List (Nat × (J → Bool))) : World J :=
  attempts.foldl (fun w a => runAll name true a.2 w (js.take a.1)) w

end Verif.Cli
