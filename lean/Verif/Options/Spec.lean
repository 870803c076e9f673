import Verif.Options.Model

/-!
# What a program should see of the options it is started with
-/

namespace Verif.Options
open Verif Verif.Cli

/-- A text that can be the value of an option: it does not begin with a dash, or it is a negative number. -/
def isValue (s : Str) : Bool := s.head? ≠ some '-' || negative s

/-- The value that an option gets from an entry of a dictionary; nothing if the entry makes no sense for this option.  A flag is asked for without a value, other options have a value of their type
that is one of their choices. -/
def asked (o : Opt) (v : Val) : Option Value :=
  if o.kind = .flag then (if v = .none then some (.bool true) else none)
  else if v = .none ∨ isValue v.str = false then none
  else (convert o.kind v.str).filter (allowed o.choices)

/-- The parser understands an entry of a dictionary. -/
def Understands (P : Parser) (p : Str × Val) : Prop := ∃ o ∈ P, o.name = p.1 ∧ (asked o p.2).isSome

instance (P : Parser) (p : Str × Val) : Decidable (Understands P p) := by unfold Understands; infer_instance

/-- The value of an option in a program that is started with the options `d`: the one asked for, or the default. -/
def meant (d : Str → Option Val) (o : Opt) : Option Value := (d o.name).elim (some o.default) (asked o)

/-- A parser as the repository builds them: different options with names, none of them called `help`. -/
def WellFormed (P : Parser) : Prop := (P.map Opt.name).Nodup ∧ ∀ o ∈ P, o.name ≠ [] ∧ o.name ≠ "help".toList

instance (P : Parser) : Decidable (WellFormed P) := by unfold WellFormed; infer_instance

/-- A value that a program may find for an option: of its type, and one of its choices. -/
def Typed (o : Opt) (v : Value) : Prop :=
  match o.kind, v with
  | .flag, .bool _ => True
  | .int, .int _ => True
  | .float, .float _ => True
  | .str, .str s => ∀ l ∈ o.choices, s ∈ l
  | _, _ => False

instance (o : Opt) (v : Value) : Decidable (Typed o v) := by unfold Typed; split <;> infer_instance

/-- Only texts have choices and all defaults are of the type of their option. -/
def Sound (P : Parser) : Prop := WellFormed P ∧ ∀ o ∈ P, Typed o o.default ∧ (o.kind ≠ .str → o.choices = none)

instance (P : Parser) : Decidable (Sound P) := by unfold Sound; infer_instance

/-- The option that a job of a sweep asks for: its own seed and directory; what is swept, where `True` means the flag and `False` the template; otherwise the template. -/
def jobOption (template d : PDict Str Val) (seed : Nat) (dir : Str) (k : Str) : Option Val :=
  if k = "seed".toList then some (.text (toString seed).toList)
  else if k = "output_directory".toList then some (.text dir)
  else
    match PDict.get? d k with
    | none => PDict.get? template k
    | some (.bool true) => some .none
    | some (.bool false) => PDict.get? template k
    | some v => some v

/-- The program understands the template and the swept options of a job (`False` leaves an option out, `True` is a flag). -/
def Accepts (P : Parser) (template d : PDict Str Val) : Prop :=
  (PDict.keys template).Nodup ∧ (PDict.keys d).Nodup ∧ (∀ p ∈ template, Understands P p) ∧ ∀ p ∈ d, p.2 = .bool false ∨ Understands P (p.1, if p.2 = .bool true then .none else p.2)

instance (P : Parser) (template d : PDict Str Val) : Decidable (Accepts P template d) := by unfold Accepts; infer_instance

/-- The program has the two options that every job gets. -/
def TakesJobs (P : Parser) : Prop := (∃ o ∈ P, o.name = "seed".toList ∧ o.kind = .int ∧ o.choices = none) ∧ ∃ o ∈ P, o.name = "output_directory".toList ∧ o.kind = .str ∧ o.choices = none

instance (P : Parser) : Decidable (TakesJobs P) := by unfold TakesJobs; infer_instance

/-- The name is no option and no beginning of one. -/
def Foreign (P : Parser) (k : Str) : Prop := k ≠ [] ∧ '=' ∉ k ∧ ' ' ∉ k ∧ ¬ k <+: "help".toList ∧ ∀ o ∈ P, ¬ k <+: o.name

instance (P : Parser) (k : Str) : Decidable (Foreign P k) := by unfold Foreign; infer_instance

end Verif.Options
