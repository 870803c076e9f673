import Verif.Base.PDict

/-!
# Parameter sweeps (`command_line_execution_tools.py:6-28`)

Python evaluates default arguments once, when the function is defined.  The two defaults `par_dict=OrderedDict()` and
`swept_parameter_list=[]` are therefore two objects that live as long as the process; they are the `Store` below.  A caller that passes
its own fresh objects is the same function started from another store.  `copy.deepcopy` of values is the identity, because values are
immutable here.
-/

namespace Verif.Sweep
open Verif

variable {V : Type}

/-- The two mutable objects `par_dict` and `swept_parameter_list` (`command_line_execution_tools.py:6`). -/
structure Store (V : Type) where
  parDict : PDict String V
  swept : List (PDict String V)
deriving Repr, DecidableEq

/-- Fresh objects: the state right after the module is imported, or `OrderedDict()` and `[]` passed by the caller. -/
def fresh : Store V := ⟨[], []⟩

/-- The effect of `recursively_sweep_parameters` on the two objects (`command_line_execution_tools.py:6-28`).
`pars` are the remaining items of `pars_to_sweep`; taking the first key and popping it from the copy is the `cons` case. -/
def sweep : PDict String (List V) → Store V → Store V
  | [], s => { s with swept := s.swept ++ [s.parDict] }
  | (k, vs) :: rest, s => vs.foldl (fun s v => sweep rest { s with parDict := s.parDict.set k v }) s

/-- What the call returns is one of the two objects, not a copy (`command_line_execution_tools.py:15` and `:28`). -/
inductive Ref | parDict | swept
deriving Repr, DecidableEq

/-- Which object is returned (`command_line_execution_tools.py:12-15,28`). -/
def returned (pars : PDict String (List V)) : Ref :=
  match pars with
  | [] => .parDict
  | _ :: _ => .swept

/-- The contents of a returned list, read when the store is `s`; `none` if the reference is the dictionary. -/
def derefList (s : Store V) : Ref → Option (List (PDict String V))
  | .parDict => none
  | .swept => some s.swept

/-- Successive calls with default arguments in one process (as `experiment_utils.py:86` does). -/
def calls (ps : List (PDict String (List V))) (s : Store V) : Store V := ps.foldl (fun s p => sweep p s) s

end Verif.Sweep
