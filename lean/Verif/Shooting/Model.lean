import Verif.Shooting.Spec

/-!
# Energies, parameters and the costate equation (`shooting_integrands.py`)

State and costate of all particles are functions on `ι × K`: `ι` indexes the particles (dimension 0 of
every tensor), `K` all the coordinates of one particle: block, state name, row (particle dimension) and
feature.  Parameters of all layers together are a function on `P`.  Numbers are reals; `torch.autograd.grad` is the
vector of partial derivatives.  `rhs θ q` stands for `rhs_advect_state_dict_of_dicts`; the concrete
right-hand sides of the model classes are in `Verif.Models`.
-/

namespace Verif.Shooting

variable {ι K P : Type} [Fintype ι] [Fintype K] [Fintype P]

/-- `autograd.grad(F(x), x)`: the partial derivatives (e.g. `shooting_integrands.py:849, 883, 933`). -/
noncomputable def autograd {J : Type} (F : (J → ℝ) → ℝ) (x : J → ℝ) : J → ℝ := fun j =>
  open Classical in deriv (fun s => F (Function.update x j s)) (x j)

/-- A right-hand side: parameters and state to the derivative of the state. -/
abbrev Rhs (J P : Type) := (P → ℝ) → (J → ℝ) → (J → ℝ)

/-- The weight of a parameter, `None` (or no entry) counts as one (`shooting_integrands.py:326-338`). -/
def weight (w : P → Option ℝ) (r : P) : ℝ := (w r).getD 1

/-- `compute_potential_energy` (`shooting_integrands.py:278-301`): for every coordinate the mean over the
particles of `costate * rhs`, summed over the coordinates. -/
noncomputable def potentialEnergy (rhs : Rhs (ι × K) P) (q p : ι × K → ℝ) (θ : P → ℝ) : ℝ :=
  ∑ k, (∑ i, p (i, k) * rhs θ q (i, k)) / Fintype.card ι

/-- `compute_kinetic_energy` (`shooting_integrands.py:303-342`) on all parameters at once; the version on
dictionaries is `Verif.Energy`. -/
noncomputable def kineticEnergy (w : P → Option ℝ) (θ : P → ℝ) : ℝ :=
  0.5 * ∑ r, weight w r * θ r ^ 2

/-- `compute_lagrangian` (`shooting_integrands.py:397-423`), first component. -/
noncomputable def lagrangian (rhs : Rhs (ι × K) P) (w : P → Option ℝ) (q p : ι × K → ℝ) (θ : P → ℝ) : ℝ :=
  kineticEnergy w θ - potentialEnergy rhs q p θ

/-- `divide_and_store_in_parameter_objects` (`shooting_integrands.py:572-591`, with `divide_by_if_not_none` of `utils.py:5-9`): no division for a missing or `None` weight. -/
noncomputable def divideByWeight (w : P → Option ℝ) (g : P → ℝ) : P → ℝ := fun r =>
  match w r with
  | none => g r
  | some c => g r / c

/-- `compute_parameters_directly` (`shooting_integrands.py:873-897`): the gradient of the potential energy
with respect to the freshly created (randomly initialised) parameters `θ0`, divided by the weights. -/
noncomputable def directParameters (rhs : Rhs (ι × K) P) (w : P → Option ℝ) (θ0 : P → ℝ) (q p : ι × K → ℝ) :
    P → ℝ :=
  divideByWeight w (autograd (fun θ => potentialEnergy rhs q p θ) θ0)

/-- One pass of the loop of `compute_parameters_iteratively` (`shooting_integrands.py:929-944`):
`learning_rate = 0.5`, parameter plus `-learning_rate` times the gradient of the Lagrangian. -/
noncomputable def iterationStep (rhs : Rhs (ι × K) P) (w : P → Option ℝ) (q p : ι × K → ℝ) (θ : P → ℝ) : P → ℝ :=
  fun r => θ r + (-0.5) * autograd (fun θ' => lagrangian rhs w q p θ') θ r

/-- `compute_parameters_iteratively` (`shooting_integrands.py:919-947`) with `n` iterations (the code uses 5). -/
noncomputable def iterativeParameters (rhs : Rhs (ι × K) P) (w : P → Option ℝ) (q p : ι × K → ℝ) (n : ℕ)
    (θ0 : P → ℝ) : P → ℝ :=
  (iterationStep rhs w q p)^[n] θ0

/-- `compute_reduced_lagrangian` (`shooting_integrands.py:344-395`), parameters computed from the state: the number
of particles times the Lagrangian at the direct parameters. -/
noncomputable def reducedLagrangian (rhs : Rhs (ι × K) P) (w : P → Option ℝ) (θ0 : P → ℝ) (q p : ι × K → ℝ) : ℝ :=
  Fintype.card ι * lagrangian rhs w q p (directParameters rhs w θ0 q p)

/-- The same in RNN mode or with external parameters (`shooting_integrands.py:362-370`): the parameters are given. -/
noncomputable def reducedLagrangianFixed (rhs : Rhs (ι × K) P) (w : P → Option ℝ) (θ : P → ℝ) (q p : ι × K → ℝ) : ℝ :=
  Fintype.card ι * lagrangian rhs w q p θ

/-- `rhs_advect_costate_reduced_dict_of_dicts` (`shooting_integrands.py:834-855`): gradient of the reduced
Lagrangian with respect to the state; the graph includes the dependence of the parameters on the state. -/
noncomputable def costateRhs (rhs : Rhs (ι × K) P) (w : P → Option ℝ) (θ0 : P → ℝ) (q p : ι × K → ℝ) : ι × K → ℝ :=
  autograd (fun q' => reducedLagrangian rhs w θ0 q' p) q

/-- The same with given parameters (RNN mode, external parameters). -/
noncomputable def costateRhsFixed (rhs : Rhs (ι × K) P) (w : P → Option ℝ) (θ : P → ℝ) (q p : ι × K → ℝ) : ι × K → ℝ :=
  autograd (fun q' => reducedLagrangianFixed rhs w θ q' p) q

end Verif.Shooting
