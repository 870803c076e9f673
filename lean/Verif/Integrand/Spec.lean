import Verif.Integrand.Model

/-! # What the histories of an integrand should amount to -/

namespace Verif.Integrand
open Verif

variable {T X Par Dot N R H D : Type}

/-- No operation resets the integrand or hands its parameters over to an external function. -/
def Plain : Op T X R Par H D → Prop
  | .reset => False
  | .setExternal _ => False
  | _ => True

/-- No operation hands the parameters over to an external function. -/
def Internal : Op T X R Par H D → Prop
  | .setExternal _ => False
  | _ => True

/-- The parameters an evaluation computes from its own state and costate (nothing if the input is rejected or the computation
raises an exception). -/
def ownParams (cfg : Cfg T X Par Dot N R H D) (x : X) (r : R × R) : Option Par :=
  if cfg.transpose = true ∧ (cfg.rule.nState x ≠ 0 ∨ cfg.rule.nCostate x ≠ 0 ∨ cfg.rule.nData x ≠ 0) then none
  else if cfg.analytic = true ∧ (cfg.rule.nState x ≠ 1 ∨ cfg.rule.nCostate x ≠ 1) then none
  else (cfg.rule.compute r.1 x).toOption

/-- The parameters of the first evaluation in a history that computes any. -/
def firstParams (cfg : Cfg T X Par Dot N R H D) (ops : List (Op T X R Par H D)) : Option Par :=
  ops.findSome? fun o => match o with
    | .eval _ x r => ownParams cfg x r
    | _ => none

/-- The hooks registered in a history: entry `k` is the hook of the `k`-th registration, or nothing once it has
been removed. -/
def slots (ops : List (Op T X R Par H D)) : List (Option H) :=
  ops.foldl (fun l o => match o with
    | .register h => l ++ [some h]
    | .remove k => l.set k none
    | _ => l) []

/-- The hooks that are registered and not removed, in the order of registration. -/
def activeHooks (ops : List (Op T X R Par H D)) : List H := (slots ops).filterMap id

/-- The custom data set last. -/
def lastCustom (ops : List (Op T X R Par H D)) : Option D :=
  ops.foldl (fun d o => match o with
    | .setCustom d' => some d'
    | _ => d) none

end Verif.Integrand
