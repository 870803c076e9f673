import Verif.Shooting.Model
import Verif.Base.Py

/-!
# The optimal transport integrand (`shooting_integrands.py:1086-1202`, `shooting_models.py:1417-1478`)

As in `Verif.Shooting`: states and costates of all particles are functions on `ι × K`, parameters functions on `P`, numbers are real.
The right-hand side of `AutoShootingOptimalTransportSimple` (`shooting_models.py:1458-1464`) is that of the second order model
(`Verif.Models.secondOrder`); only inflation factor 1 fits (`C58_particles_vector`).
-/

namespace Verif.Transport
open Verif.Shooting

variable {ι K P : Type} [Fintype ι] [Fintype K]

/-- `compute_kinetic_energy` (`shooting_integrands.py:1119-1142`) with a number as weight: the sum of the squares of the
derivatives of all particles. -/
noncomputable def kinetic (rhs : Rhs (ι × K) P) (w : ℝ) (q : ι × K → ℝ) (θ : P → ℝ) : ℝ :=
  0.5 * w * ∑ m, rhs θ q m ^ 2

/-- `compute_kinetic_energy` with any `parameter_weight` (line 1141): `0.5 * None` raises. -/
noncomputable def kineticPy (rhs : Rhs (ι × K) P) (w : Option ℝ) (q : ι × K → ℝ) (θ : P → ℝ) : Py ℝ :=
  match w with
  | none => .error .typeError
  | some w => .ok (kinetic rhs w q θ)

/-- `compute_lagrangian` (`shooting_integrands.py:1175-1202`), first component. -/
noncomputable def lagr (rhs : Rhs (ι × K) P) (w : ℝ) (q p : ι × K → ℝ) (θ : P → ℝ) : ℝ :=
  kinetic rhs w q θ - potentialEnergy rhs q p θ

/-- One pass of the loop (`shooting_integrands.py:1151-1171`), `learning_rate = 0.5` (line 1148). -/
noncomputable def step (rhs : Rhs (ι × K) P) (w : ℝ) (q p : ι × K → ℝ) (θ : P → ℝ) : P → ℝ :=
  fun r => θ r + (-0.5) * autograd (fun θ' => lagr rhs w q p θ') θ r

/-- `n` passes. -/
noncomputable def iterate (rhs : Rhs (ι × K) P) (w : ℝ) (q p : ι × K → ℝ) (n : ℕ) (θ0 : P → ℝ) : P → ℝ :=
  (step rhs w q p)^[n] θ0

/-- `compute_parameters_iteratively` (`shooting_integrands.py:1144-1173`): `nr_of_fixed_point_iterations = 10` (line 1149), starting at the
freshly created (random) parameters `θ0`. -/
noncomputable def parameters (rhs : Rhs (ι × K) P) (w : ℝ) (q p : ι × K → ℝ) (θ0 : P → ℝ) : P → ℝ :=
  iterate rhs w q p 10 θ0

/-- `compute_parameters` with any `parameter_weight`: the first Lagrangian raises if there is no weight. -/
noncomputable def parametersPy (rhs : Rhs (ι × K) P) (w : Option ℝ) (q p : ι × K → ℝ) (θ0 : P → ℝ) : Py (P → ℝ) :=
  match kineticPy rhs w q θ0, w with
  | .error e, _ => .error e
  | .ok _, none => .error .typeError
  | .ok _, some w => .ok (parameters rhs w q p θ0)

/-- The norm penalty computed at time 0 (`shooting_integrands.py:656-671, 711-726`).  With external parameters `compute_kinetic_energy` is
called with two positional arguments (lines 666, 721); this class needs four.  `external` are the external parameters, at least one set. -/
noncomputable def penalty (rhs : Rhs (ι × K) P) (w : Option ℝ) (q : ι × K → ℝ) (external : Option ((P → ℝ) × List (P → ℝ))) (θ : P → ℝ) : Py ℝ :=
  match external with
  | some _ => .error .typeError
  | none => kineticPy rhs w q θ

end Verif.Transport
