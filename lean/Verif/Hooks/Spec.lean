import Verif.Base.SDict
import Mathlib.Algebra.BigOperators.Group.Finset.Basic
import Mathlib.Data.Real.Basic
import Mathlib.Algebra.BigOperators.Fin

/-!
# What is recorded, and what the norms of a matrix are

Nothing in this file mentions the code.
-/

namespace Verif.Hooks
open Verif

/-- The six groups of time-dependent variables. -/
inductive Which where
  | state | costate | data | dotState | dotCostate | dotData
  deriving DecidableEq

/-- The three norms. -/
inductive Kind where
  | frobenius | nuclear | spectral
  deriving DecidableEq

/-- What is recorded: time, energy, a parameter of an object, a variable of a block, a squared norm of a parameter, a sum of squared norms. -/
inductive Key where
  | time
  | energy
  | param (object parameter : String)
  | var (block : String) (which : Which) (name : String)
  | norm (kind : Kind) (object parameter : String)
  | total (kind : Kind)
  deriving DecidableEq

/-- The name of a group. -/
def Which.text : Which → String
  | .state => "state"
  | .costate => "costate"
  | .data => "data"
  | .dotState => "dot_state"
  | .dotCostate => "dot_costate"
  | .dotData => "dot_data"

/-- The beginning of the name of a norm. -/
def Kind.text : Kind → String
  | .frobenius => "sqr_frobenius_norm"
  | .nuclear => "sqr_nuclear_norm"
  | .spectral => "sqr_spectral_norm"

/-- The name under which something is recorded. -/
def Key.text : Key → String
  | .time => "t"
  | .energy => "energy"
  | .param k p => k ++ "." ++ p
  | .var b w s => b ++ "." ++ w.text ++ "." ++ s
  | .norm n k p => n.text ++ "_" ++ k ++ "." ++ p
  | .total n => "sum_" ++ n.text

/-- A name without dots. -/
def NoDot (s : String) : Prop := '.' ∉ s.toList

/-- The names a recording can tell apart: no dots, and no parameter object whose name begins with `sqr_`. -/
def Key.Plain : Key → Prop
  | .param k p => NoDot k ∧ NoDot p ∧ ¬ "sqr_".toList <+: k.toList
  | .var b _ s => NoDot b ∧ NoDot s
  | .norm _ k p => NoDot k ∧ NoDot p
  | _ => True

/-- The entry of a dictionary of dictionaries. -/
def entry {V : Type} (d : SDict String (SDict String V)) (a b : String) : Option V := (SDict.get? d a).bind fun x => SDict.get? x b

/-- Each name occurs only once. -/
def Distinct {V : Type} (d : SDict String (SDict String V)) : Prop := (SDict.keys d).Nodup ∧ ∀ b ∈ d, (SDict.keys b.2).Nodup

/-- All entries of a dictionary of dictionaries, with their two names, in the order of iteration. -/
def flat {V : Type} (d : SDict String (SDict String V)) : List (String × String × V) :=
  d.flatMap fun b => b.2.map fun s => (b.1, s.1, s.2)

/-- `s` are the singular values of `a`: `a = U diag(s) Vᵀ` with orthonormal columns of `U` and `V`, and `s` non-negative, decreasing. -/
structure SingularValues {m n r : ℕ} (a : Fin m → Fin n → ℝ) (s : Fin r → ℝ) : Prop where
  nonneg : ∀ i, 0 ≤ s i
  decreasing : ∀ i j, i ≤ j → s j ≤ s i
  factors : ∃ (U : Fin m → Fin r → ℝ) (V : Fin n → Fin r → ℝ),
    (∀ i j, ∑ x, U x i * U x j = if i = j then 1 else 0) ∧ (∀ i j, ∑ x, V x i * V x j = if i = j then 1 else 0) ∧
    ∀ x y, a x y = ∑ i, U x i * s i * V y i

end Verif.Hooks
