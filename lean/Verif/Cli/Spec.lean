import Verif.Cli.Model

/-!
# Readers for the produced strings

Independent parsers: what the other side does with the produced text.
-/

namespace Verif.Cli
open Verif

/-- Does an argument look like an option? -/
def isOption (s : Str) : Bool := s.take 2 == "--".toList

/-- Reading an argument list back: an option name takes the next argument as its value unless that is an option itself. -/
def parseArgs : List Str → PDict Str (Option Str)
  | [] => []
  | [o] => [(o.drop 2, none)]
  | o :: v :: rest =>
    if isOption v then (o.drop 2, none) :: parseArgs (v :: rest)
    else (o.drop 2, some v) :: parseArgs rest

/-- What an entry of the argument dictionary means on the command line. -/
def meaning (p : Str × Val) : Str × Option Str :=
  (p.1, match p.2 with | .none => none | v => some v.str)

/-- Removing the backslash in front of semicolons, which is what the shell does with an unquoted word. -/
def unescape : Str → Str
  | [] => []
  | [c] => [c]
  | c :: d :: s => if c = '\\' ∧ d = ';' then ';' :: unescape s else c :: unescape (d :: s)

/-- Splitting a text at a separator character: the list of (possibly empty) pieces. -/
def pieces (sep : Char) : Str → List Str
  | [] => [[]]
  | c :: s =>
    if c = sep then [] :: pieces sep s
    else match pieces sep s with
      | [] => [[c]]
      | p :: ps => (c :: p) :: ps

/-- Joining texts with a separator between them. -/
def joinWith (sep : Str) : List Str → Str
  | [] => []
  | [s] => s
  | s :: t :: rest => s ++ sep ++ joinWith sep (t :: rest)

end Verif.Cli
