import Verif.Flow.Model

/-!
# The memory of an integrand across passes

An integrand remembers how to read vectors (`auto_assembly_plans`, `shooting_integrands.py:81, 229-230`) and, in RNN mode, the parameters of the last pass.  Backward passes that evaluate the integrand again - the
adjoint method (`generic_integrator.py:106-109`) and checkpoints (`torch.utils.checkpoint`, lines 227-249) - do so with the memory of the moment of the backward pass.
-/

namespace Verif.Recompute
open Verif Verif.Assembly Verif.Flow

variable {α T σ : Type}

/-- The plans in use (none at first, line 81) and everything else that changes. -/
structure Mem (σ : Type) where
  plans : Option AllPlans
  inner : σ

/-- `set_auto_assembly_plans`, lines 229-230. -/
def setPlans (p : AllPlans) (m : Mem σ) : Mem σ := { m with plans := some p }

/-- The method `disassemble_tensor`, lines 247-262: without `assembly_plans` the stored plans are used; with them line 260 raises. -/
def takeApart (m : Mem σ) (x : Input α) (given : Option AllPlans) (dim : Int) : Py (Trip α) :=
  match given with
  | none => disassembleTensor x m.plans dim
  | some _ => .error .valueError

/-- `forward` of the integrand, lines 781-816.  `F` computes the derivatives from the dictionaries (lines 791-808) and changes the memory, also if it raises. -/
def evaluate (F : T → Trip α → σ → σ × Py (Trip α)) (t : T) (v : List α) (m : Mem σ) : Mem σ × Py (List α) :=
  match takeApart m (.vec v) none 0 with
  | .error e => (m, .error e)
  | .ok x => ({ m with inner := (F t x m.inner).1 }, (F t x m.inner).2.bind fun y => (assembleTensor y.1 y.2.1 y.2.2).map Prod.fst)

/-- An integration method applied to the integrand; `rs` are the known vectors, all with `n` elements (`Flow.runVec`, with the memory also after an exception). -/
def run [Add α] [Zero α] (n : Nat) (F : T → Trip α → σ → σ × Py (Trip α)) : Method α T → List (List α) → Mem σ → Mem σ × Py (List (List α))
  | .done outs, rs, m => (m, .ok (outs.map fun g => zipVec g n rs))
  | .fail e, _, m => (m, .error e)
  | .eval t g next, rs, m =>
    match evaluate F t (zipVec g n rs) m with
    | (m, .error e) => (m, .error e)
    | (m, .ok y) => run n F next (rs ++ [y]) m
  | .test q next, rs, m => run n F (next (zipVec q n rs).sum) rs m

/-- The integration of a pass of a block (`shooting_blocks.py:687-698`): the plans are stored, the memory is reset, then the vector is integrated. -/
def pass [Add α] [Zero α] (reset : σ → σ) (F : T → Trip α → σ → σ × Py (Trip α)) (M : Method α T) (p : AllPlans) (x0 : List α) (m : Mem σ) : Mem σ × Py (List (List α)) :=
  run x0.length F M [x0] ⟨some p, reset (setPlans p m).inner⟩

/-- `_integrate_checkpointed` (`generic_integrator.py:227-249`), without the selection of output times: one method after the other, each from the last row of the one before.  The result has the rows of every
chunk. -/
def chunks [Add α] [Zero α] (n : Nat) (F : T → Trip α → σ → σ × Py (Trip α)) : List (Method α T) → List α → Mem σ → Mem σ × Py (List (List (List α)))
  | [], _, m => (m, .ok [])
  | M :: Ms, x, m =>
    match run n F M [x] m with
    | (m, .error e) => (m, .error e)
    | (m, .ok rows) =>
      match rows.getLast? with
      | none => (m, .error .indexError)
      | some y =>
        match chunks n F Ms y m with
        | (m, .error e) => (m, .error e)
        | (m, .ok more) => (m, .ok (rows :: more))

/-- What can happen to an integrand. -/
inductive Event (α T : Type) where
  /-- a pass of a block (whether it ends well or with an exception) -/
  | pass (M : Method α T) (p : AllPlans) (x0 : List α)
  /-- an evaluation -/
  | eval (t : T) (v : List α)
  /-- a user sets the plans -/
  | plans (p : AllPlans)

def step [Add α] [Zero α] (reset : σ → σ) (F : T → Trip α → σ → σ × Py (Trip α)) (m : Mem σ) : Event α T → Mem σ
  | .pass M p x0 => (pass reset F M p x0 m).1
  | .eval t v => (evaluate F t v m).1
  | .plans p => setPlans p m

/-- The memory after a history. -/
def after [Add α] [Zero α] (reset : σ → σ) (F : T → Trip α → σ → σ × Py (Trip α)) (m : Mem σ) (es : List (Event α T)) : Mem σ := es.foldl (step reset F) m

/-- The derivatives of an integrand (`compute_gradients` and hooks, `Verif.Integrand`); the memory has a source of random numbers for the initial parameters. -/
def derivatives {Par N R H D : Type} [LinearOrder T] [OfNat T 0] [Field N] (cfg : Integrand.Cfg T (Trip α) Par (TDicts α) N R H D) (t : T) (x : Trip α)
    (s : Integrand.St T Par N H D × (Nat → R × R)) : (Integrand.St T Par N H D × (Nat → R × R)) × Py (Trip α) :=
  (((Integrand.forward cfg.rule cfg.hookFails cfg.analytic cfg.transpose t x (s.2 0) s.1).1, fun n => s.2 (n + 1)),
    (Integrand.forward cfg.rule cfg.hookFails cfg.analytic cfg.transpose t x (s.2 0) s.1).2.2.map fun o => (o.dotState, o.dotCostate, o.dotData))

/-- `reset` (`shooting_integrands.py:99-102`). -/
def resetInner {Par N R H D : Type} (s : Integrand.St T Par N H D × (Nat → R × R)) : Integrand.St T Par N H D × (Nat → R × R) := (Integrand.reset s.1, s.2)

end Verif.Recompute
