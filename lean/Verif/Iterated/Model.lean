import Verif.Shooting.Model

/-!
# Costates when the parameters come from the fixed-point iteration

`NonlinearInParameterAutogradShootingIntegrand` (`shooting_integrands.py:904-950`) computes its parameters by a number of gradient steps from
freshly created parameters; the derivative of the costate is the gradient of the reduced Lagrangian *through* these steps.  Every call of
`compute_parameters` creates new (random) parameters, so state and costate equations start from different draws.
-/

namespace Verif.Iterated
open Verif.Shooting

variable {ι K P : Type} [Fintype ι] [Fintype K] [Fintype P]

/-- `compute_reduced_lagrangian` (`shooting_integrands.py:344-395`) with the parameters of `compute_parameters_iteratively`
(`shooting_integrands.py:919-950`): `n` steps (the code uses 5) from the created parameters `θ0`. -/
noncomputable def reducedLagrangian (rhs : Rhs (ι × K) P) (w : P → Option ℝ) (n : ℕ) (θ0 : P → ℝ) (q p : ι × K → ℝ) : ℝ :=
  Fintype.card ι * lagrangian rhs w q p (iterativeParameters rhs w q p n θ0)

/-- `rhs_advect_costate_reduced_dict_of_dicts` (`shooting_integrands.py:834-855`) of such a class: the graph contains the iteration. -/
noncomputable def costateRhs (rhs : Rhs (ι × K) P) (w : P → Option ℝ) (n : ℕ) (θ0 : P → ℝ) (q p : ι × K → ℝ) : ι × K → ℝ :=
  autograd (fun q' => reducedLagrangian rhs w n θ0 q' p) q

/-- The derivative of the state (`compute_gradients_autodiff`, `shooting_integrands.py:689-733`): the right-hand side at the iterated parameters, from another draw. -/
noncomputable def stateRhs (rhs : Rhs (ι × K) P) (w : P → Option ℝ) (n : ℕ) (θ1 : P → ℝ) (q p : ι × K → ℝ) : ι × K → ℝ :=
  rhs (iterativeParameters rhs w q p n θ1) q

/-! ## `tests/raw_fixed_point_check.py`

One number for each of `q`, `p` and the parameter. -/

/-- `compute_lagrangian`, first component (`raw_fixed_point_check.py:22-29`). -/
noncomputable def rawLagrangian (nl : ℝ → ℝ) (q p θ : ℝ) : ℝ := 0.5 * θ * θ - p * θ * nl q

/-- `compute_parameter_autograd` (`raw_fixed_point_check.py:74-90`): gradient steps from zero. The script uses `lr = 0.5` and `n = 2`. -/
noncomputable def rawParameterAutograd (lr : ℝ) (n : ℕ) (nl : ℝ → ℝ) (q p : ℝ) : ℝ :=
  (fun θ => θ - lr * deriv (rawLagrangian nl q p) θ)^[n] 0

/-- `compute_reduced_lagrangian`, first component (`raw_fixed_point_check.py:34-39`). -/
noncomputable def rawReduced (lr : ℝ) (n : ℕ) (nl : ℝ → ℝ) (q p : ℝ) : ℝ :=
  let θ := rawParameterAutograd lr n nl q p
  0.5 * θ * θ - p * θ * nl q

/-- `rhs_state` (`raw_fixed_point_check.py:51-53`). -/
def rawState (nl : ℝ → ℝ) (q θ : ℝ) : ℝ := θ * nl q

/-- `rhs_costate` (`raw_fixed_point_check.py:55-57`). -/
def rawCostate (dnl : ℝ → ℝ) (q p θ : ℝ) : ℝ := -dnl q * θ * p

/-- `compute_parameter` (`raw_fixed_point_check.py:59-64`). -/
noncomputable def rawParameter (nl : ℝ → ℝ) (q p : ℝ) : ℝ := 15 / 16 * (p * nl q)

/-- `rhs_shooting_analytic` (`raw_fixed_point_check.py:66-71`): derivative of `q` and of `p`. -/
noncomputable def rawAnalytic (nl dnl : ℝ → ℝ) (q p : ℝ) : ℝ × ℝ :=
  let θ := rawParameter nl q p
  (rawState nl q θ, rawCostate dnl q p θ)

/-- `rhs_shooting_autograd` (`raw_fixed_point_check.py:92-105`) with `rhs_costate_autograd_reduced` (`raw_fixed_point_check.py:42-49`). -/
noncomputable def rawAutograd (lr : ℝ) (n : ℕ) (nl : ℝ → ℝ) (q p : ℝ) : ℝ × ℝ :=
  (rawState nl q (rawParameterAutograd lr n nl q p), deriv (fun q' => rawReduced lr n nl q' p) q)

end Verif.Iterated
