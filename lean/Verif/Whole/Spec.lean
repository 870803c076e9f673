import Verif.Flow.Spec
import Verif.Whole.Model
import Verif.Block.Spec
import Verif.Evolution.Model

/-!
# Integrating functions of coordinates

No tensors, no dictionaries, no vectors: a system is a triple of functions (`Evolution.Sys2`), a method combines them coordinate by coordinate.
-/

namespace Verif.Whole
open Verif Verif.Evolution

variable {ι β K K' : Type}

/-- Combining systems coordinate by coordinate. -/
def combine (g : List ℝ → ℝ) (zs : List (Sys2 ι β K K')) : Sys2 ι β K K' :=
  (fun k => g (zs.map fun z => z.1 k), fun k => g (zs.map fun z => z.2.1 k), fun k => g (zs.map fun z => z.2.2 k))

/-- The sum over all coordinates. -/
def sumAll [Fintype ι] [Fintype β] [Fintype K] [Fintype K'] (z : Sys2 ι β K K') : ℝ := ∑ k, z.1 k + ∑ k, z.2.1 k + ∑ k, z.2.2 k

/-- An integration method applied to a right-hand side. -/
def runSys [Fintype ι] [Fintype β] [Fintype K] [Fintype K'] (fld : ℝ → Sys2 ι β K K' → Sys2 ι β K K') : Flow.Method ℝ ℝ → List (Sys2 ι β K K') → Py (List (Sys2 ι β K K'))
  | .done outs, zs => .ok (outs.map fun g => combine g zs)
  | .fail e, _ => .error e
  | .eval t g next, zs => runSys fld next (zs ++ [fld t (combine g zs)])
  | .test q next, zs => runSys fld (next (sumAll (combine q zs))) zs

/-- Where a method evaluates the right-hand side for the first time, if it does. -/
def firstEval [Fintype ι] [Fintype β] [Fintype K] [Fintype K'] : Flow.Method ℝ ℝ → List (Sys2 ι β K K') → Option (Sys2 ι β K K')
  | .done _, _ => none
  | .fail _, _ => none
  | .eval _ g _, zs => some (combine g zs)
  | .test q next, zs => firstEval (next (sumAll (combine q zs))) zs

/-- A class seen as in `Verif.Evolution`: how it gets parameters and derivative of the costate, when new parameters start from `r`. -/
def modeOf {P R : Type} (c : Cls K K' P R) (n : Nat) (r : R) : Mode (Fin n) K P where
  params _ q p := c.par n r q p
  cost _ q p := c.cost n (c.par n r q p) r q p

/-- The same with stored parameters. -/
def modeAt {P R : Type} (c : Cls K K' P R) (n : Nat) (θ : Par P R) : Mode (Fin n) K P where
  params _ _ _ := θ.1
  cost _ q p := c.cost n θ.1 θ.2 q p

/-- What starts a new parameter has no influence. -/
def Indep {P R : Type} (c : Cls K K' P R) : Prop := ∀ n r r' q p,
  c.par n r q p = c.par n r' q p ∧ c.cost n (c.par n r q p) r q p = c.cost n (c.par n r' q p) r' q p

/-- A method without decisions that depend on values: a fixed-step method. -/
def Fixed : Flow.Method ℝ ℝ → Prop
  | .done _ => True
  | .fail _ => True
  | .eval _ _ next => Fixed next
  | .test _ _ => False

/-- Rows at several times, as a dictionary: every tensor has one more dimension in front, the time. -/
noncomputable def encTimes (L : Lay K) (pre : String) (n : Nat) (xs : List (Fin n × K → ℝ)) : Concat.TDict ℝ :=
  L.names.map fun e => (pre ++ e.1, tab (xs.length :: n :: e.2) fun idx => ((xs[idx.headD 0]?).map fun x => value L n x e.1 idx.tail).getD 0)

/-- What a block returns for given final values. -/
noncomputable def outEnd (L : Lay K) (L' : Lay K') (nm key : String) (sh : List Nat) {n B : Nat} (y : Sys2 (Fin n) (Fin B) K K') : Block.Out ℝ :=
  ⟨.tensor (tab (B :: sh) (value L' B y.2.2 key)), [(nm, enc L "" n y.1)], [(nm, enc L "p_" n y.2.1)], [(nm, enc L' "" B y.2.2)]⟩

/-- What a block returns for given values at the times of a vector. -/
noncomputable def outTimes (L : Lay K) (L' : Lay K') (nm key : String) (sh : List Nat) {n B : Nat} (ys : List (Sys2 (Fin n) (Fin B) K K')) : Block.Out ℝ :=
  ⟨.tensor (tab (ys.length :: B :: sh) fun idx => ((ys[idx.headD 0]?).map fun y => value L' B y.2.2 key idx.tail).getD 0),
    [(nm, encTimes L "" n (ys.map fun y => y.1))], [(nm, encTimes L "p_" n (ys.map fun y => y.2.1))], [(nm, encTimes L' "" B (ys.map fun y => y.2.2))]⟩

/-- The end of a forward pass: the values at the last time, or those at all times of a vector.  A block that has returned something is no longer new. -/
noncomputable def report {Θ : Type} (L : Lay K) (L' : Lay K') (nm key : String) (sh : List Nat) (s : Block.St ℝ ℝ Θ) (w : Block.When ℝ) {n B : Nat} (ys : Py (List (Sys2 (Fin n) (Fin B) K K'))) :
    Block.St ℝ ℝ Θ × Py (Block.Out ℝ) :=
  match ys with
  | .error e => (s, .error e)
  | .ok ys => match w with
    | .upTo _ => match ys.getLast? with
      | none => (s, .error .indexError)
      | some y => ({ s with notYet := false }, .ok (outEnd L L' nm key sh y))
    | .vector _ => ({ s with notYet := false }, .ok (outTimes L L' nm key sh ys))

end Verif.Whole
