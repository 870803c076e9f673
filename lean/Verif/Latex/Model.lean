/-!
# Escaping LaTeX special characters (`figure_utils.py:5-26`)

A Python string is a list of characters.  All keys of the table are single characters, so the regular expression is an alternation of
single characters and `regex.sub` replaces character by character, from left to right, never looking at replaced text again.
-/

namespace Verif.Latex

/-- The table `conv` (`figure_utils.py:10-23`). -/
def conv : List (Char × List Char) :=
  [('&', "\\&".toList), ('%', "\\%".toList), ('$', "\\$".toList), ('#', "\\#".toList), ('_', "\\_".toList),
   ('{', "\\{".toList), ('}', "\\}".toList), ('~', "\\textasciitilde{}".toList), ('^', "\\^{}".toList),
   ('\\', "\\textbackslash{}".toList), ('<', "\\textless{}".toList), ('>', "\\textgreater{}".toList)]

/-- `conv[match.group()]` for a matched character, the character itself otherwise (`figure_utils.py:24-25`). -/
def code (c : Char) : List Char :=
  match conv.lookup c with
  | some s => s
  | none => [c]

/-- `escape_latex_special_characters(text)` (`figure_utils.py:5-26`) -/
def escape : List Char → List Char
  | [] => []
  | c :: s => code c ++ escape s

end Verif.Latex
