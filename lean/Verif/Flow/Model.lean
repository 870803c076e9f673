import Verif.Flow.Spec
import Verif.Block.Model
import Verif.Integrand.Model

/-!
# The integration as the library does it

The integrator (`generic_integrator.py:228-264`, `odeint` of `torchdiffeq`) works on one vector; the integrand takes it apart, computes
derivatives and puts them together (`shooting_integrands.py:781-816`).
-/

namespace Verif.Flow
open Verif Verif.Assembly

variable {α T σ : Type}

/-- Combining vectors element by element (`torchdiffeq` adds and scales whole vectors).  All vectors have `n` elements. -/
def zipVec [Zero α] (g : List α → α) (n : Nat) (rs : List (List α)) : List α := (List.range n).map fun j => g (rs.map fun r => r.getD j 0)

/-- A method applied to a function on vectors. -/
def runVec [Add α] [Zero α] (n : Nat) (f : T → List α → σ → Py (List α × σ)) : Method α T → List (List α) → σ → Py (List (List α) × σ)
  | .done outs, rs, s => .ok (outs.map fun g => zipVec g n rs, s)
  | .fail e, _, _ => .error e
  | .eval t g next, rs, s =>
    match f t (zipVec g n rs) s with
    | .error e => .error e
    | .ok (y, s') => runVec n f next (rs ++ [y]) s'
  | .test q next, rs, s => runVec n f (next (zipVec q n rs).sum) rs s

/-- `forward` of the integrand on vectors (`shooting_integrands.py:781-816`): take apart with the stored plans (`disassemble_tensor`, lines 247-262),
compute the derivatives, put together (the plans of the derivatives are not looked at). -/
def vecRhs (p : AllPlans) (F : T → Trip α → σ → Py (Trip α × σ)) (t : T) (v : List α) (s : σ) : Py (List α × σ) := do
  let x ← disassembleTensor (.vec v) (some p) 0
  let (y, s') ← F t x s
  let (w, _) ← assembleTensor y.1 y.2.1 y.2.2
  .ok (w, s')

/-- The integrator as a block uses it (`shooting_blocks.py:691-698`): the memory `s0` of the integrand is cleared first, then a vector is integrated with the method that
belongs to the requested times. -/
def solveWith [Add α] [Zero α] {Θ : Type} (M : List T → Method α T) (F : Θ → Nat → T → Trip α → σ → Py (Trip α × σ)) (s0 : σ) :
    Θ → Nat → AllPlans → List α → List T → Py (Option (List (List α))) := fun th dim p x0 ts => do
  let (rows, _) ← runVec x0.length (vecRhs p (F th dim)) (M ts) [x0] s0
  .ok (some rows)

/-- The derivatives that an integrand (`Verif.Integrand`) computes, as a function of the dictionaries.  The memory is the state of the integrand and a
source of random numbers. -/
def ofIntegrand {Par N R H D : Type} [LinearOrder T] [OfNat T 0] [Field N] (cfg : Integrand.Cfg T (Trip α) Par (TDicts α) N R H D) (t : T) (x : Trip α)
    (s : Integrand.St T Par N H D × (Nat → R × R)) : Py (Trip α × (Integrand.St T Par N H D × (Nat → R × R))) :=
  match Integrand.forward cfg.rule cfg.hookFails cfg.analytic cfg.transpose t x (s.2 0) s.1 with
  | (_, _, .error e) => .error e
  | (s', _, .ok o) => .ok ((o.dotState, o.dotCostate, o.dotData), s', fun n => s.2 (n + 1))

end Verif.Flow
