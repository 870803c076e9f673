import Verif.Adjoint.Spec
import Verif.Evolution.Model
import Mathlib.Topology.Algebra.Module.ContinuousLinearMap.PiProd

/-!
# Integration that computes gradients backward

`GenericIntegrator` with `use_adjoint_integration` (`generic_integrator.py:46, 80, 106-114`; `--adjoint` of `demos/neurips20/spiral.py:94, 113-123, 486`) passes the integrand as the function
`func` and the vector of all initial values to `odeint_adjoint` of torchdiffeq, which is not part of the repository.  What it is taken to do: the values are those of the equation `func`
and the gradient that reaches the initial values is the result of `Backward` for `func` (here with exact solutions).  Gradients reach nothing else than the initial values and `func.parameters()`: every
other tensor that `func` uses is a constant for it.
-/

namespace Verif.Adjoint
open Verif.Shooting Verif.Evolution

variable {ι β K K' P : Type}

/-- Where the parameters of the equations come from. -/
inductive Source where
  /-- from the particles, at every evaluation (`shooting_integrands.py:707-711`) -/
  | particles
  /-- from the particles, at the first evaluation after `reset` (`use_rnn_mode`, lines 99-102, 698-705) -/
  | firstParticles
  /-- optimised directly (`use_particle_free_rnn_mode`, `use_particle_free_time_dependent_mode`, `shooting_blocks.py:218-235`, `shooting_integrands.py:104-107, 694-697`) -/
  | direct

/-- What a forward pass depends on: the initial particles, costates and samples, and the parameter sets that are optimised directly (one for every time step of
`ParticleFreeParameterFunc`, `shooting_blocks.py:11-41`; not used in the other cases). -/
abbrev Inputs (ι β K K' P : Type) (k : ℕ) := Sys2 ι β K K' × (Fin k → P → ℝ)

section
variable [Fintype ι] [Fintype K] [Fintype P]

/-- The parameters that the integrand keeps between evaluations of one integration.  In RNN mode these are the ones of the initial values: the first evaluation of an integration is at these
(`C37_rnn` and `C67_forward_rnn` are about the evaluations themselves).  `when` is the parameter set for a time (`get_parameters_at_time`, `shooting_blocks.py:46-85`). -/
noncomputable def held (m : Source) (f : Class K P) (w : P → Option ℝ) (ρ : P → ℝ) {k : ℕ} (when : ℝ → Fin k) (l : Inputs ι β K K' P k) : ℝ → P → ℝ :=
  match m with
  | .particles => fun _ => 0
  | .firstParticles => fun _ => directParameters (f ι) w ρ l.1.1 l.1.2.1
  | .direct => fun t => l.2 (when t)

/-- The function that is integrated (`forward`, `shooting_integrands.py:781-816`) as a function of time and the vector, for given kept parameters.  For parameters optimised directly the
library needs the hand-written costate equations (`C37_external_autodiff_raises`); they agree with the ones here where `C34_fixed_parameters` applies, and no prediction depends on them. -/
noncomputable def func (m : Source) (f : Class K P) (g : Class K' P) (w : P → Option ℝ) (ρ : ℝ → (P → ℝ) × (P → ℝ)) (kept : ℝ → P → ℝ) : ℝ → Sys2 ι β K K' → Sys2 ι β K K' :=
  match m with
  | .particles => field2 f g (autodiff f w ρ)
  | .firstParticles => field2 f g (given f w kept)
  | .direct => field2 f g (given f w kept)

end

/-- The gradient with respect to all inputs, from the one with respect to the initial values.  The parameter sets are registered with the block (`register_particle_free_parameters`,
`shooting_blocks.py:508-522`) and not with the integrand, which has them in a plain object (`set_externally_managed_rnn_parameter_func`, `shooting_integrands.py:104-107`), so that they are not in `func.parameters()`.
The parameters that are (networks for the initial values of the samples, `register_integrand_parameters`, lines 500-506) are not used by the equations, only for the initial values. -/
noncomputable def returned [Fintype ι] [Fintype β] [Fintype K] [Fintype K'] [Fintype P] {k : ℕ} (g : Sys2 ι β K K' →L[ℝ] ℝ) : Inputs ι β K K' P k →L[ℝ] ℝ := g.comp (ContinuousLinearMap.fst ℝ _ _)

/-- The values of the forward passes for all inputs, with exact solutions. -/
def Forward [Fintype ι] [Fintype β] [Fintype K] [Fintype K'] [Fintype P] (m : Source) (f : Class K P) (g : Class K' P) (w : P → Option ℝ) (ρ : ℝ → (P → ℝ) × (P → ℝ)) {k : ℕ} (when : ℝ → Fin k) (a b : ℝ)
    (Y : Inputs ι β K K' P k → ℝ → Sys2 ι β K K') : Prop :=
  ∀ l, Converge.Solves (func m f g w ρ (held m f w (ρ a).1 when l)) a b (Y l) ∧ Y l a = l.1

end Verif.Adjoint
