import Verif.Cli.Spec

/-!
# A small shell

Nothing here is about the library: what `sh` and `bash` do with a line.  Only a part of the language is described; a line outside of this part has no meaning here (`none`).

* Words are separated by spaces.  A backslash takes the next character literally; inside double quotes it does so only in front of `"`, `\`, `$` and the backquote, otherwise both
  characters stay.  Single quotes take everything literally.
* `&&`, `>`, `>&`, `>(` and `)` are operators; a number directly in front of `>` belongs to the redirection.
* Expansions (`$`, backquotes, patterns, braces, `~`), comments, `;`, `|`, `<`, background commands and newlines are outside of this part.
* A shell that is not interactive does not replace aliases; `alias` succeeds and has no effect on what is started.
-/

namespace Verif.Shell
open Verif Verif.Cli

/-- Characters with a meaning for a shell. -/
def special : List Char := [' ', '\t', '\n', '\\', '"', '\'', '$', '`', '&', '|', ';', '<', '>', '(', ')', '*', '?', '[', ']', '{', '}', '~', '#', '!']

/-- A text without such characters. -/
def Plain (s : Str) : Prop := ∀ c ∈ s, c ∉ special

instance (s : Str) : Decidable (Plain s) := by unfold Plain; infer_instance

inductive Tok
  | word (s : Str)
  /-- a number directly in front of a redirection -/
  | io (s : Str)
  | op (s : Str)
deriving DecidableEq, Repr

inductive Mode
  | plain | esc | dq | dqEsc | sq | amp | gt
deriving DecidableEq, Repr

/-- The state of the reader: where it is, the word that has been begun, the tokens so far. -/
structure Reader where
  mode : Mode
  cur : Option Str
  toks : List Tok
deriving DecidableEq, Repr

def Reader.push (l : Reader) (c : Char) : Reader := { l with cur := some (l.cur.getD [] ++ [c]) }

def Reader.emit (l : Reader) (t : Tok) : Reader := { l with toks := l.toks ++ [t] }

/-- The word ends. -/
def Reader.flush (l : Reader) : Reader :=
  match l.cur with
  | none => l
  | some w => { l with cur := none, toks := l.toks ++ [.word w] }

/-- The word ends in front of `>`. -/
def Reader.flushNumber (l : Reader) : Reader :=
  match l.cur with
  | none => l
  | some w => { l with cur := none, toks := l.toks ++ [if w.all Char.isDigit then .io w else .word w] }

/-- A character outside of quotes. -/
def plainStep (l : Reader) (c : Char) : Option Reader :=
  if c = ' ' then some l.flush
  else if c = '\\' then some { l with mode := .esc }
  else if c = '"' then some { l with mode := .dq, cur := some (l.cur.getD []) }
  else if c = '\'' then some { l with mode := .sq, cur := some (l.cur.getD []) }
  else if c = '&' then some { l.flush with mode := .amp }
  else if c = '>' then some { l.flushNumber with mode := .gt }
  else if c = ')' then some (l.flush.emit (.op ")".toList))
  else if c ∈ special then none
  else some (l.push c)

/-- One character. -/
def step (l : Reader) (c : Char) : Option Reader :=
  match l.mode with
  | .plain => plainStep l c
  | .esc => if c = '\n' then none else some ({ l with mode := .plain }.push c)
  | .dq =>
    if c = '"' then some { l with mode := .plain }
    else if c = '\\' then some { l with mode := .dqEsc }
    else if c = '$' ∨ c = '`' then none
    else some (l.push c)
  | .dqEsc =>
    if c = '"' ∨ c = '\\' ∨ c = '$' ∨ c = '`' then some ({ l with mode := .dq }.push c)
    else if c = '\n' then none
    else some (({ l with mode := .dq }.push '\\').push c)
  | .sq => if c = '\'' then some { l with mode := .plain } else some (l.push c)
  | .amp => if c = '&' then some ({ l with mode := .plain }.emit (.op "&&".toList)) else none
  | .gt =>
    if c = '&' then some ({ l with mode := .plain }.emit (.op ">&".toList))
    else if c = '(' then some ({ l with mode := .plain }.emit (.op ">(".toList))
    else if c = '>' then none
    else plainStep ({ l with mode := .plain }.emit (.op ">".toList)) c

/-- The tokens of a line. -/
def tokens (s : Str) : Option (List Tok) := do
  let l ← s.foldlM step ⟨.plain, none, []⟩
  if l.mode = .plain then some l.flush.toks else none

/-- Where the output goes. -/
inductive Output
  | inherited
  /-- standard output into a program -/
  | pipe (argv : List Str)
  /-- standard output and standard error into a program -/
  | pipeBoth (argv : List Str)
deriving DecidableEq, Repr

/-- A program that is started: variables set for it only, its arguments (the first is its name), its output. -/
structure Proc where
  env : List Str
  argv : List Str
  output : Output
deriving DecidableEq, Repr

/-- The words at the beginning, and the rest. -/
def words : List Tok → List Str × List Tok
  | .word w :: ts => let r := words ts; (w :: r.1, r.2)
  | ts => ([], ts)

/-- `NAME=value` -/
def isAssignment (w : Str) : Bool :=
  let n := w.takeWhile (· ≠ '=')
  w.contains '=' && !n.isEmpty && n.all (fun c => c.isAlphanum || c = '_') && !(n.headD '0').isDigit

/-- The redirections at the end of a command. -/
def output : List Tok → Option Output
  | [] => some .inherited
  | .op a :: .op b :: ts =>
    if a = ">".toList ∧ b = ">(".toList then
      let r := words ts
      if r.2 = [.op ")".toList] then some (.pipe r.1)
      else if r.2 = [.op ")".toList, .io "2".toList, .op ">&".toList, .word "1".toList] then some (.pipeBoth r.1)
      else none
    else none
  | _ => none

/-- One command. -/
def command (ts : List Tok) : Option Proc := do
  let r := words ts
  let o ← output r.2
  some ⟨r.1.takeWhile isAssignment, r.1.dropWhile isAssignment, o⟩

/-- The pieces between `&&`. -/
def splitAnd : List Tok → List (List Tok)
  | [] => [[]]
  | t :: ts =>
    if t = .op "&&".toList then [] :: splitAnd ts
    else match splitAnd ts with
      | [] => [[t]]
      | p :: ps => (t :: p) :: ps

/-- The commands of a line. -/
def commands (s : Str) : Option (List Proc) := do
  let ts ← tokens s
  (splitAnd ts).mapM command

/-- The programs a shell starts for a line, one after the other as long as they succeed; `alias` is no program. -/
def programs (s : Str) : Option (List Proc) :=
  (commands s).map (List.filter fun p => p.argv.head? ≠ some "alias".toList)

/-- What `os.system` starts: the line is a call of `bash -c`, whose next argument is the line that `bash` executes (further arguments are not looked at by it). -/
def system (s : Str) : Option (List Proc) :=
  match programs s with
  | some [⟨[], b :: o :: line :: _, .inherited⟩] => if b = "bash".toList ∧ o = "-c".toList then programs line else none
  | _ => none

/-- The variables of the started program: the device, if one is given. -/
def device (cuda : Option Int) : List Str := cuda.toList.map fun d => ("CUDA_VISIBLE_DEVICES=" ++ toString d).toList

/-- The output of the started program: into the log file (and to the screen, `tee`) together with error messages, if a log file is given. -/
def logged (log : Option Str) : Output := log.elim .inherited fun l => .pipeBoth ["tee".toList, l]

end Verif.Shell
