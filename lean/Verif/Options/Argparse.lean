import Verif.Cli.Model
import Mathlib.Data.Rat.Defs

/-!
# What a command line means to Python's `argparse`

`argparse` is part of Python, not of the repository; this is the part of it that the parsers of the repository use: long options with a type, choices and a default, flags (`store_true`), abbreviations
(`allow_abbrev`, on by default), the automatic option for help, and no positional arguments.  `parse_args` ends the program with status 2 when it does not understand the arguments and with status 0 after
printing the help.  An argument `--` (which the code of the repository builds only for an option without name) counts as not understood.  The texts of numbers are those of decimal notation without white
space and without underscores; floating point numbers are rationals.
-/

namespace Verif.Options
open Verif Verif.Cli

/-- `action='store_true'` or the `type` of an option. -/
inductive Kind
  | flag
  | int
  | float
  | str
deriving DecidableEq, Repr

/-- A value in the result of `parse_args`. -/
inductive Value
  | bool (b : Bool)
  | int (n : Int)
  | float (x : Rat)
  | str (s : Str)
deriving DecidableEq

/-- `add_argument('--name', type=…, choices=…, default=…)` -/
structure Opt where
  name : Str
  kind : Kind
  choices : Option (List Str)
  default : Value
deriving DecidableEq

abbrev Parser := List Opt

/-- How `parse_args` ends. -/
inductive Exit (α : Type)
  | ok (a : α)
  | usage
  | help
deriving DecidableEq

/-! ## Numbers -/

/-- The value of a digit. -/
def digitValue (c : Char) : Option Nat := if '0' ≤ c ∧ c ≤ '9' then some (c.toNat - 48) else none

/-- The digits at the beginning of a text: how many, their value (appended to `acc`), and the rest. -/
def takeDigits : Nat → Str → Nat × Nat × Str
  | acc, [] => (0, acc, [])
  | acc, c :: s =>
    match digitValue c with
    | none => (0, acc, c :: s)
    | some d => let r := takeDigits (10 * acc + d) s; (r.1 + 1, r.2)

/-- A sign. -/
def takeSign : Str → Bool × Str
  | '-' :: s => (true, s)
  | '+' :: s => (false, s)
  | s => (false, s)

/-- `int(s)` -/
def readInt (s : Str) : Option Int :=
  let t := takeSign s
  match takeDigits 0 t.2 with
  | (_ + 1, v, []) => some (if t.1 then -(v : Int) else v)
  | _ => none

/-- The exponent of a decimal number: nothing, or `e` and an integer. -/
def readExponent : Str → Option Int
  | [] => some 0
  | c :: s => if c = 'e' ∨ c = 'E' then readInt s else none

/-- The digits after the decimal point, if there is one, appended to `acc`: how many, the value, the rest. -/
def readFraction (acc : Nat) : Str → Nat × Nat × Str
  | '.' :: s => takeDigits acc s
  | s => (0, acc, s)

/-- `float(s)` -/
def readFloat (s : Str) : Option Rat :=
  let t := takeSign s
  let a := takeDigits 0 t.2
  let b := readFraction a.2.1 a.2.2
  if a.1 + b.1 = 0 then none
  else (readExponent b.2.2).map fun e => (if t.1 then -1 else 1) * (b.2.1 : Rat) * (10 : Rat) ^ (e - (b.1 : Int))

/-- The conversion of an argument (`_get_value`). -/
def convert : Kind → Str → Option Value
  | .flag, _ => none
  | .int, s => (readInt s).map .int
  | .float, s => (readFloat s).map .float
  | .str, s => some (.str s)

/-- The test of the choices (`_check_value`); in the repository only texts have choices. -/
def allowed : Option (List Str) → Value → Bool
  | none, _ => true
  | some l, .str s => l.contains s
  | some _, _ => false

/-! ## Options and values -/

/-- The text before the first `=` and the one after it. -/
def splitEq : Str → Option (Str × Str)
  | [] => none
  | c :: s => if c = '=' then some ([], s) else (splitEq s).map fun p => (c :: p.1, p.2)

/-- What an argument is. -/
inductive Arg
  | value
  | option (o : Opt) (explicit : Option Str)
  | help
  | unknown
  | ambiguous
deriving DecidableEq

/-- The name of the automatic option. -/
def helpName : Str := "help".toList

/-- The option with exactly this name. -/
def find (P : Parser) (n : Str) : Option Opt := P.find? fun o => o.name = n

/-- The abbreviations: all options whose name begins like this (`_get_option_tuples`). -/
def completions (P : Parser) (n : Str) : List (Option Opt) :=
  (if n <+: helpName then [none] else []) ++ (P.filter fun o => n <+: o.name).map some

/-- An abbreviated option. -/
def abbreviated (P : Parser) (n : Str) (explicit : Option Str) : Arg :=
  match completions P n with
  | [] => .unknown
  | [some o] => .option o explicit
  | [none] => if explicit.isNone then .help else .unknown
  | _ => .ambiguous

/-- Does the text look like a negative number (`_negative_number_matcher`)? -/
def negative (s : Str) : Bool :=
  match s with
  | '-' :: t =>
    match takeDigits 0 t with
    | (_ + 1, _, []) => true
    | (_, _, '.' :: u) => decide ((takeDigits 0 u).1 ≠ 0) && (takeDigits 0 u).2.2.isEmpty
    | _ => false
  | _ => false

/-- A text that begins with a dash but names no option: a value if it looks like a negative number or contains a space. -/
def otherwise (s : Str) : Arg := if negative s || s.contains ' ' then .value else .unknown

/-- `_parse_optional` for a text after `--` -/
def longOption (P : Parser) (n : Str) : Arg :=
  if n = [] then .unknown
  else if n = helpName then .help
  else
    match find P n with
    | some o => .option o none
    | none =>
      match splitEq n with
      | some (m, e) =>
        if m = helpName then .unknown
        else
          match find P m with
          | some o => .option o (some e)
          | none => match abbreviated P m (some e) with
            | .unknown => otherwise ('-' :: '-' :: n)
            | a => a
      | none => match abbreviated P n none with
        | .unknown => otherwise ('-' :: '-' :: n)
        | a => a

/-- `_parse_optional` -/
def classify (P : Parser) : Str → Arg
  | ['-'] => .value
  | '-' :: '-' :: n => longOption P n
  | ['-', 'h'] => .help
  | '-' :: 'h' :: _ => .unknown
  | '-' :: s => otherwise ('-' :: s)
  | _ => .value

/-! ## Parsing -/

abbrev Namespace := PDict Str Value

/-- Storing an argument: conversion, choices. -/
def store (o : Opt) (s : Str) (ns : Namespace) : Option Namespace :=
  (convert o.kind s).bind fun v => if allowed o.choices v then some (ns.set o.name v) else none

/-- The loop of `_parse_known_args`; `pending` is an option that still needs its argument, `extras` says whether something was not recognised. -/
def consume (P : Parser) : List Str → Option Opt → Bool → Namespace → Exit Namespace
  | [], none, extras, ns => if extras then .usage else .ok ns
  | [], some _, _, _ => .usage
  | a :: rest, some o, extras, ns =>
    if classify P a = .value then
      match store o a ns with
      | none => .usage
      | some ns => consume P rest none extras ns
    else .usage
  | a :: rest, none, extras, ns =>
    match classify P a with
    | .value => consume P rest none true ns
    | .unknown => consume P rest none true ns
    | .ambiguous => .usage
    | .help => .help
    | .option o none =>
      if o.kind = .flag then consume P rest none extras (ns.set o.name (.bool true))
      else consume P rest (some o) extras ns
    | .option o (some e) =>
      match store o e ns with
      | none => .usage
      | some ns => consume P rest none extras ns

/-- The defaults. -/
def defaults (P : Parser) : Namespace := P.map fun o => (o.name, o.default)

/-- `parser.parse_args(argv)` -/
def parse (P : Parser) (argv : List Str) : Exit Namespace :=
  if argv.any fun a => classify P a = .ambiguous then .usage else consume P argv none false (defaults P)

end Verif.Options
